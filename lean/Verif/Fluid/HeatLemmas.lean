import Verif.Fluid.Heat
import Mathlib.Analysis.SpecialFunctions.Log.Basic
import Mathlib.Analysis.Complex.ExponentialBounds
import Mathlib.Tactic.LinearCombination

/-!
# Lemmas on the friction factor
-/

namespace Gunns.Heat

open Gunns.Interp (limitRange)

theorem limit_bounds {l x u : ℝ} (h : l ≤ u) : l ≤ limitRange l x u ∧ limitRange l x u ≤ u :=
  ⟨le_max_right _ _, max_le (min_le_right _ _) h⟩

theorem limit_id {l x u : ℝ} (h1 : l ≤ x) (h2 : x ≤ u) : limitRange l x u = x := by
  unfold limitRange
  rw [min_eq_left h2, max_eq_left h1]

theorem ln10_gt : (2 : ℝ) < Real.log 10 := by
  rw [Real.lt_log_iff_exp_lt (by norm_num)]
  have h := Real.exp_one_lt_d9
  have e : Real.exp 2 = Real.exp 1 * Real.exp 1 := by rw [← Real.exp_add]; norm_num
  rw [e]
  have h0 := Real.exp_pos 1
  nlinarith

theorem ln10_lt : Real.log 10 < 2.5 := by
  rw [Real.log_lt_iff_lt_exp (by norm_num)]
  have e : Real.exp 2.5 = Real.exp 1 * Real.exp 1 * Real.exp 0.5 := by rw [← Real.exp_add, ← Real.exp_add]; norm_num
  have h1 := Real.exp_one_gt_d9
  have h2 := Real.add_one_le_exp (0.5 : ℝ)
  have h3 : (2.7 : ℝ) * 2.7 < Real.exp 1 * Real.exp 1 := by nlinarith
  rw [e]
  nlinarith

theorem log10_le {x : ℝ} (hx : 0 < x) {p q : ℕ} (hq : 0 < q) (h : x ^ q ≤ 10 ^ p) : log10 x ≤ p / q := by
  have hq' : (0 : ℝ) < q := by exact_mod_cast hq
  unfold log10
  rw [le_div_iff₀ hq']
  have e := Real.logb_le_logb_of_le (b := 10) (by norm_num) (by positivity) h
  rw [Real.logb_pow, Real.logb_pow, Real.logb_self_eq_one (by norm_num)] at e
  linarith

theorem le_log10 {x : ℝ} {p q : ℕ} (hq : 0 < q) (h : (10 : ℝ) ^ p ≤ x ^ q) : p / q ≤ log10 x := by
  have hq' : (0 : ℝ) < q := by exact_mod_cast hq
  unfold log10
  rw [div_le_iff₀ hq']
  have e := Real.logb_le_logb_of_le (b := 10) (by norm_num) (by positivity) h
  rw [Real.logb_pow, Real.logb_pow, Real.logb_self_eq_one (by norm_num)] at e
  linarith

theorem log10_mono {x y : ℝ} (hx : 0 < x) (h : x ≤ y) : log10 x ≤ log10 y :=
  Real.logb_le_logb_of_le (by norm_num) hx h

theorem log10_mul {x y : ℝ} (hx : 0 < x) (hy : 0 < y) : log10 (x * y) = log10 x + log10 y :=
  Real.logb_mul hx.ne' hy.ne'

theorem log10_le_half {x : ℝ} (hx : 0 < x) : log10 x ≤ x / 2 := by
  have h := Real.log_le_sub_one_of_pos hx
  have h2 := ln10_gt
  unfold log10 Real.logb
  rw [div_le_iff₀ (by linarith)]
  nlinarith

theorem log10_neg {x : ℝ} (hx : 0 < x) (h : x < 1) : log10 x < 0 :=
  Real.logb_neg (by norm_num) hx h

/-- The argument of the second logarithm is positive, the second logarithm is negative and at most 0.79 of the first. -/
theorem fric_core {rod ret : ℝ} (hr : 0 ≤ rod) (ht : 0 < ret) (hA : rod + 12 / ret < 1) :
    fricA rod ret < 0 ∧ 0 < rod - 5.02 * fricA rod ret / ret ∧ fricB rod ret ≤ 0.79 * fricA rod ret ∧
    0 < rod + 10.04 * fricA rod ret * fricB rod ret / ret ∧
    0 < fricC rod ret - 2 * fricB rod ret + fricA rod ret := by
  have hApos : 0 < rod + 12 / ret := by positivity
  have ha : fricA rod ret < 0 := log10_neg hApos hA
  obtain ⟨e, he⟩ : ∃ e, e = 1 / ret := ⟨_, rfl⟩
  have he0 : 0 < e := by rw [he]; positivity
  have hdiv : ∀ x : ℝ, x / ret = x * e := fun x => by rw [he]; ring
  obtain ⟨α, hα⟩ : ∃ α, α = -fricA rod ret := ⟨_, rfl⟩
  have hα0 : 0 < α := by rw [hα]; linarith
  have hfa : fricA rod ret = -α := by rw [hα]; ring
  have hB : 0 < rod - 5.02 * fricA rod ret / ret := by
    rw [hfa, hdiv]
    have := mul_pos hα0 he0
    nlinarith
  have hb : fricB rod ret ≤ 0.79 * fricA rod ret := by
    rw [hdiv] at hApos
    have hB' := hB
    rw [hfa, hdiv] at hB'
    have eb : fricB rod ret = log10 (rod - 5.02 * -α * e) := by unfold fricB; rw [hfa, hdiv]
    have ea : log10 (rod + 12 * e) = -α := by rw [← hfa]; unfold fricA; rw [hdiv]
    rw [eb, hfa]
    by_cases hc : 5.02 * α ≤ 12
    · have hle : rod - 5.02 * -α * e ≤ rod + 12 * e := by nlinarith
      have := log10_mono hB' hle
      rw [ea] at this
      linarith
    · push Not at hc
      have hk : 1 < 5.02 * α / 12 := by rw [lt_div_iff₀ (by norm_num)]; linarith
      have hle : rod - 5.02 * -α * e ≤ (rod + 12 * e) * (5.02 * α / 12) := by
        have : rod ≤ rod * (5.02 * α / 12) := le_mul_of_one_le_right hr hk.le
        have e2 : (rod + 12 * e) * (5.02 * α / 12) = rod * (5.02 * α / 12) + 5.02 * α * e := by ring
        rw [e2]; linarith
      have h1 := log10_mono hB' hle
      rw [log10_mul hApos (by linarith), ea] at h1
      have h2 := log10_le_half (x := 5.02 * α / 12) (by linarith)
      linarith
  obtain ⟨β, hβ⟩ : ∃ β, β = -fricB rod ret := ⟨_, rfl⟩
  have hfb : fricB rod ret = -β := by rw [hβ]; ring
  have hβα : 0.79 * α ≤ β := by rw [hfa, hfb] at hb; linarith
  have hβ0 : 0 < β := by linarith [hβα, hα0]
  have hC : 0 < rod + 10.04 * fricA rod ret * fricB rod ret / ret := by
    rw [hfa, hfb, hdiv]
    have := mul_pos (mul_pos hα0 hβ0) he0
    nlinarith
  refine ⟨ha, hB, hb, hC, ?_⟩
  have hABC : (rod - 5.02 * fricA rod ret / ret) ^ 2 <
      (rod + 10.04 * fricA rod ret * fricB rod ret / ret) * (rod + 12 / ret) := by
    simp only [hdiv, hfa, hfb]
    have k1 : 0 < 10.04 * (α * β) + 12 - 10.04 * α := by nlinarith [sq_nonneg (α - 0.633), mul_le_mul_of_nonneg_left hβα hα0.le]
    have k2 : 0 < 120.48 * (α * β) - 25.2004 * (α * α) := by nlinarith [mul_le_mul_of_nonneg_left hβα hα0.le, mul_pos hα0 hα0]
    have k3 : 0 ≤ rod * e * (10.04 * (α * β) + 12 - 10.04 * α) := mul_nonneg (mul_nonneg hr he0.le) k1.le
    have k4 : 0 < e * e * (120.48 * (α * β) - 25.2004 * (α * α)) := mul_pos (mul_pos he0 he0) k2
    nlinarith
  have h1 : log10 ((rod - 5.02 * fricA rod ret / ret) ^ 2) <
      log10 ((rod + 10.04 * fricA rod ret * fricB rod ret / ret) * (rod + 12 / ret)) :=
    Real.logb_lt_logb (by norm_num) (pow_pos hB 2) hABC
  rw [pow_two, log10_mul hB hB, log10_mul hC hApos] at h1
  have e1 : log10 (rod - 5.02 * fricA rod ret / ret) = fricB rod ret := rfl
  have e2 : log10 (rod + 10.04 * fricA rod ret * fricB rod ret / ret) = fricC rod ret := rfl
  have e3 : log10 (rod + 12 / ret) = fricA rod ret := rfl
  rw [e1, e2, e3] at h1
  linarith

/-- What the code takes the logarithm of first is less than 0.1382. -/
theorem fric_arg {rOverD ret : ℝ} (ht : 4000 ≤ ret) :
    0 ≤ relRoughness rOverD ∧ 0 < ret ∧ relRoughness rOverD + 12 / ret ≤ 0.1382 := by
  have h := limit_bounds (l := (0 : ℝ)) (x := rOverD) (u := 1 / 2) (by norm_num)
  have hr : 0 ≤ relRoughness rOverD := by unfold relRoughness; exact div_nonneg h.1 (by norm_num)
  have hr2 : relRoughness rOverD ≤ (1 / 2) / 3.7 := by
    unfold relRoughness; exact div_le_div_of_nonneg_right h.2 (by norm_num)
  have ht0 : 0 < ret := by linarith
  refine ⟨hr, ht0, ?_⟩
  have : 12 / ret ≤ 12 / 4000 := div_le_div_of_nonneg_left (by norm_num) (by norm_num) ht
  have e : (1 / 2 : ℝ) / 3.7 + 12 / 4000 ≤ 0.1382 := by norm_num
  linarith

theorem fricA_le {rOverD ret : ℝ} (ht : 4000 ≤ ret) : fricA (relRoughness rOverD) ret ≤ -0.85 := by
  obtain ⟨h1, h2, h3⟩ := fric_arg (rOverD := rOverD) ht
  have hp : 0 < relRoughness rOverD + 12 / ret := by positivity
  have h4 : (17 : ℕ) / (20 : ℕ) ≤ log10 (0.1382⁻¹ : ℝ) := le_log10 (by norm_num) (by norm_num)
  have h5 := log10_mono hp h3
  have e : log10 (0.1382⁻¹ : ℝ) = -log10 0.1382 := Real.logb_inv _ _
  rw [e] at h4
  norm_num at h4
  unfold fricA
  linarith

/-- The friction factor in turbulent flow is positive and at most 0.347. -/
theorem turbulent_bounds {rOverD ret : ℝ} (ht : 4000 ≤ ret) :
    0 < fricTurbulent (relRoughness rOverD) ret ∧ fricTurbulent (relRoughness rOverD) ret ≤ 0.347 := by
  obtain ⟨h1, h2, h3⟩ := fric_arg (rOverD := rOverD) ht
  obtain ⟨-, -, -, -, k5⟩ := fric_core h1 h2 (lt_of_le_of_lt h3 (by norm_num))
  have ha := fricA_le (rOverD := rOverD) ht
  obtain ⟨x, hx⟩ : ∃ x, x = fricA (relRoughness rOverD) ret - (fricB (relRoughness rOverD) ret -
      fricA (relRoughness rOverD) ret) ^ 2 / (fricC (relRoughness rOverD) ret - 2 * fricB (relRoughness rOverD) ret +
      fricA (relRoughness rOverD) ret) := ⟨_, rfl⟩
  have hx2 : x ≤ -0.85 := by
    have := div_nonneg (sq_nonneg (fricB (relRoughness rOverD) ret - fricA (relRoughness rOverD) ret)) k5.le
    rw [hx]; linarith
  have e : fricTurbulent (relRoughness rOverD) ret = 0.25 / x ^ 2 := by rw [hx]; rfl
  have hsq : 0.7225 ≤ x ^ 2 := by nlinarith
  rw [e]
  refine ⟨div_pos (by norm_num) (by linarith), ?_⟩
  rw [div_le_iff₀ (by linarith)]
  nlinarith

theorem regime_range (re : ℝ) : 0 ≤ regimeFactor re ∧ regimeFactor re ≤ 1 := limit_bounds (by norm_num)

theorem regime_pos {re : ℝ} : 0 < regimeFactor re ↔ 2300 < re := by
  unfold regimeFactor limitRange reLaminar reTransition
  rw [lt_max_iff, lt_min_iff]
  constructor
  · rintro (⟨h, -⟩ | h)
    · rw [lt_div_iff₀ (by norm_num)] at h; linarith
    · exact absurd h (lt_irrefl _)
  · intro h
    exact Or.inl ⟨div_pos (by linarith) (by norm_num), by norm_num⟩

theorem regime_one {re : ℝ} (h : 4000 ≤ re) : regimeFactor re = 1 := by
  unfold regimeFactor limitRange reLaminar reTransition
  have : 1 ≤ (re - 2300) / (4000 - 2300) := by rw [le_div_iff₀ (by norm_num)]; linarith
  rw [min_eq_right this]; norm_num

end Gunns.Heat
