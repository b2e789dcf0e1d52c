import Verif.Fluid.HeatLemmas

/-!
# C69: heat between flows and walls
-/

namespace Gunns.Props

open Gunns.Heat
open Gunns.Interp (limitRange)

/-! ## Friction factor and Nusselt number -/

/-- The factor of the flow regime is 0 up to the laminar limit, 1 from the transition limit on and linear in between. -/
theorem c69_regime (re : ℝ) :
    (re ≤ 2300 → regimeFactor re = 0) ∧ (4000 ≤ re → regimeFactor re = 1) ∧
    (2300 ≤ re → re ≤ 4000 → regimeFactor re = (re - 2300) / 1700) := by
  refine ⟨fun h => ?_, regime_one, fun h1 h2 => ?_⟩
  · exact le_antisymm (not_lt.mp (fun c => absurd (regime_pos.mp c) (not_lt.mpr h))) (regime_range re).1
  · unfold regimeFactor reLaminar reTransition
    rw [limit_id (div_nonneg (by linarith) (by norm_num)) (by rw [div_le_iff₀ (by norm_num)]; linarith)]
    norm_num

/-- Laminar flow has the friction factor `64 / Re` and the Nusselt number 3.66. -/
theorem c69_laminar {re : ℝ} (h0 : dblEps ≤ re) (h : re ≤ 2300) (prandtl rOverD : ℝ) :
    darcy rOverD re = 64 / re ∧ nusselt prandtl rOverD re = 3.66 := by
  have hz : ¬ regimeFactor re > 0 := by rw [(c69_regime re).1 h]; exact lt_irrefl _
  have e1 : darcy rOverD re = 64 / limitRange dblEps re reLaminar := if_neg hz
  have e2 : nusselt prandtl rOverD re = 3.66 := if_neg hz
  rw [e1, limit_id h0 (show re ≤ reLaminar from h)]
  exact ⟨rfl, e2⟩

/-- For every roughness and Reynolds number from the transition limit on, the three logarithms of the turbulent friction
factor have positive arguments and nothing is divided by zero. -/
theorem c69_defined (rOverD : ℝ) {ret : ℝ} (h : 4000 ≤ ret) :
    0 < relRoughness rOverD + 12 / ret ∧
    0 < relRoughness rOverD - 5.02 * fricA (relRoughness rOverD) ret / ret ∧
    0 < relRoughness rOverD + 10.04 * fricA (relRoughness rOverD) ret * fricB (relRoughness rOverD) ret / ret ∧
    fricC (relRoughness rOverD) ret - 2 * fricB (relRoughness rOverD) ret + fricA (relRoughness rOverD) ret ≠ 0 ∧
    fricA (relRoughness rOverD) ret - (fricB (relRoughness rOverD) ret - fricA (relRoughness rOverD) ret) ^ 2 /
      (fricC (relRoughness rOverD) ret - 2 * fricB (relRoughness rOverD) ret + fricA (relRoughness rOverD) ret) < 0 := by
  obtain ⟨h1, h2, h3⟩ := fric_arg (rOverD := rOverD) h
  obtain ⟨k1, k2, -, k4, k5⟩ := fric_core h1 h2 (lt_of_le_of_lt h3 (by norm_num))
  refine ⟨by positivity, k2, k4, k5.ne', ?_⟩
  have := div_nonneg (sq_nonneg (fricB (relRoughness rOverD) ret - fricA (relRoughness rOverD) ret)) k5.le
  linarith

/-- The friction factor is positive for all roughnesses and Reynolds numbers; from the laminar limit on it is at most 0.347.
In the transition it is the linear interpolation between its values at the two limits. -/
theorem c69_darcy (rOverD re : ℝ) :
    0 < darcy rOverD re ∧ (2300 ≤ re → darcy rOverD re ≤ 0.347) ∧
    (2300 ≤ re → re ≤ 4000 → darcy rOverD re =
      darcy rOverD 2300 + (darcy rOverD 4000 - darcy rOverD 2300) * ((re - 2300) / 1700)) := by
  have hE1 : (dblEps : ℝ) ≤ 2300 := by have := dblEps_lt_one (K := ℝ); linarith
  have hlam : ∀ x : ℝ, 0 < limitRange dblEps x reLaminar := fun x =>
    lt_of_lt_of_le dblEps_pos (limit_bounds (u := reLaminar) hE1).1
  have hlam2 : ∀ x : ℝ, 2300 ≤ x → limitRange dblEps x reLaminar = 2300 := fun x hx => by
    unfold limitRange reLaminar
    rw [min_eq_right hx, max_eq_left hE1]
  have hpos : ∀ x : ℝ, regimeFactor x > 0 → darcy rOverD x = 64 / limitRange dblEps x reLaminar * (1 - regimeFactor x) +
      fricTurbulent (relRoughness rOverD) (max x reTransition) * regimeFactor x := fun x hx => if_pos hx
  have hneg : ∀ x : ℝ, ¬ regimeFactor x > 0 → darcy rOverD x = 64 / limitRange dblEps x reLaminar := fun x hx => if_neg hx
  obtain ⟨r0, r1⟩ := regime_range re
  have hT := turbulent_bounds (rOverD := rOverD) (ret := max re reTransition) (le_max_right _ _)
  have hm := hlam re
  refine ⟨?_, ?_, ?_⟩
  · by_cases hf : regimeFactor re > 0
    · rw [hpos re hf]
      have a : 0 ≤ 64 / limitRange dblEps re reLaminar * (1 - regimeFactor re) :=
        mul_nonneg (div_nonneg (by norm_num) hm.le) (by linarith)
      have b := mul_pos hT.1 hf
      linarith
    · rw [hneg re hf]
      exact div_pos (by norm_num) hm
  · intro h
    by_cases hf : regimeFactor re > 0
    · rw [hpos re hf, hlam2 re h]
      nlinarith [mul_le_mul_of_nonneg_right hT.2 hf.le]
    · rw [hneg re hf, hlam2 re h]
      norm_num
  · intro h1 h2
    have e23 : darcy rOverD 2300 = 64 / 2300 := by
      rw [hneg 2300 (by rw [(c69_regime 2300).1 le_rfl]; exact lt_irrefl _), hlam2 2300 le_rfl]
    have e40 : darcy rOverD 4000 = fricTurbulent (relRoughness rOverD) 4000 := by
      have h1' := regime_one (re := 4000) le_rfl
      have : max (4000 : ℝ) reTransition = 4000 := max_self _
      rw [hpos 4000 (by rw [h1']; norm_num), h1', this]; ring
    rw [e23, e40]
    by_cases hf : regimeFactor re > 0
    · have hm4 : max re reTransition = 4000 := max_eq_right h2
      rw [hpos re hf, hlam2 re h1, (c69_regime re).2.2 h1 h2, hm4]
      ring
    · have h23 : re = 2300 := le_antisymm (not_lt.mp (fun c => hf (regime_pos.mpr c))) h1
      rw [h23, hneg 2300 (h23 ▸ hf), hlam2 2300 le_rfl]
      norm_num

/-- The Colebrook-White equation. -/
def c69Colebrook (rOverD re f : ℝ) : Prop := 1 / √f = -2 * log10 (rOverD / 3.7 + 2.51 / (re * √f))

/-- The code's factor is documented to approximate the solution of this equation within 0.14 percent. In a smooth pipe at a
Reynolds number of 120000, the equation's factor is more than 14 percent above the code's. -/
theorem c69_not_colebrook {f : ℝ} (hf : 0 < f) (h : c69Colebrook 0 120000 f) : 1.14 * darcy 0 120000 < f := by
  have hr : relRoughness 0 = 0 := by
    unfold relRoughness limitRange; norm_num
  have hd : darcy 0 120000 = fricTurbulent 0 120000 := by
    have h1 := regime_one (re := 120000) (by norm_num)
    have e : darcy 0 120000 = 64 / limitRange dblEps 120000 reLaminar * (1 - regimeFactor 120000) +
      fricTurbulent (relRoughness 0) (max 120000 reTransition) * regimeFactor 120000 :=
        if_pos (by rw [h1]; norm_num)
    have hm : max (120000 : ℝ) reTransition = 120000 := max_eq_left (by unfold reTransition; norm_num)
    rw [e, h1, hr, hm]; ring
  -- the equation
  have hs : 0 < √f := Real.sqrt_pos.mpr hf
  obtain ⟨y, hy⟩ : ∃ y, y = 1 / √f := ⟨_, rfl⟩
  have hy0 : 0 < y := by rw [hy]; positivity
  have hfy : f = 1 / y ^ 2 := by
    rw [hy, div_pow, one_pow, one_div_one_div, Real.sq_sqrt hf.le]
  have hy2 : y ≤ 7.6 := by
    by_contra hc
    push Not at hc
    unfold c69Colebrook at h
    rw [← hy] at h
    have earg : (0 : ℝ) / 3.7 + 2.51 / (120000 * √f) = 2.51 * y / 120000 := by
      rw [hy]; field_simp; norm_num
    rw [earg] at h
    have h1 : log10 (2.51 * 7.6 / 120000) ≤ log10 (2.51 * y / 120000) :=
      log10_mono (by norm_num) (by
        apply div_le_div_of_nonneg_right _ (by norm_num)
        linarith)
    have h3 := log10_le (x := ((2.51 * 7.6 / 120000 : ℝ)⁻¹)) (p := 19) (q := 5) (by norm_num) (by norm_num) (by norm_num)
    have e : log10 ((2.51 * 7.6 / 120000 : ℝ)⁻¹) = -log10 (2.51 * 7.6 / 120000) := Real.logb_inv _ _
    rw [e] at h3
    push_cast at h3
    linarith
  have hfl : 1 / 57.76 ≤ f := by
    rw [hfy]
    apply one_div_le_one_div_of_le (by positivity)
    nlinarith
  -- the code
  have ha : fricA 0 120000 = -4 := by
    have e : (0 : ℝ) + 12 / 120000 = (10 ^ 4)⁻¹ := by norm_num
    have e2 : fricA 0 120000 = -(log10 (10 ^ 4)) := by
      unfold fricA; rw [e]; exact Real.logb_inv _ _
    rw [e2]
    unfold log10
    rw [Real.logb_pow, Real.logb_self_eq_one (by norm_num)]
    norm_num
  obtain ⟨u, hu⟩ : ∃ u, u = log10 (20.08 / 12) := ⟨_, rfl⟩
  have h4 : log10 (10 ^ 4)⁻¹ = -4 := by rw [← ha]; unfold fricA; norm_num
  have hb : fricB 0 120000 = u - 4 := by
    unfold fricB
    rw [ha, show (0 : ℝ) - 5.02 * -4 / 120000 = 20.08 / 12 * (10 ^ 4)⁻¹ by norm_num, log10_mul (by norm_num) (by norm_num),
      h4, hu]
    ring
  have hu1 : 2 / 9 ≤ u := by
    have := le_log10 (x := 20.08 / 12) (p := 2) (q := 9) (by norm_num) (by norm_num)
    rw [hu]; exact_mod_cast this
  have hu2 : u ≤ 1 / 4 := by
    have := log10_le (x := 20.08 / 12) (p := 1) (q := 4) (by norm_num) (by norm_num) (by norm_num)
    rw [hu]; exact_mod_cast this
  have hc : fricC 0 120000 = log10 (40.16 * (4 - u) / 12) - 4 := by
    unfold fricC
    rw [ha, hb, show (0 : ℝ) + 10.04 * -4 * (u - 4) / 120000 = 40.16 * (4 - u) / 12 * (10 ^ 4)⁻¹ by ring,
      log10_mul (by linarith) (by norm_num), h4]
    ring
  have hc1 : fricC 0 120000 ≤ 10 / 9 - 4 := by
    have h1 : log10 (40.16 * (4 - u) / 12) ≤ log10 (40.16 * (4 - 2 / 9) / 12) :=
      log10_mono (by linarith) (by linarith)
    have h2 := log10_le (x := 40.16 * (4 - 2 / 9) / 12) (p := 10) (q := 9) (by norm_num) (by norm_num) (by norm_num)
    push_cast at h2
    rw [hc]; linarith
  have hc2 : 1 - 4 ≤ fricC 0 120000 := by
    have h1 := le_log10 (x := 40.16 * (4 - u) / 12) (p := 1) (q := 1) (by norm_num) (by linarith)
    push_cast at h1
    rw [hc]; linarith
  obtain ⟨d, hdd⟩ : ∃ d, d = fricC 0 120000 - 2 * fricB 0 120000 + fricA 0 120000 := ⟨_, rfl⟩
  have hd1 : d ≤ 2 / 3 := by rw [hdd, ha, hb]; linarith
  have hd2 : 0 < d := by rw [hdd, ha, hb]; linarith
  have hq : 2 / 27 ≤ (fricB 0 120000 - fricA 0 120000) ^ 2 / d := by
    rw [le_div_iff₀ hd2, hb, ha]
    nlinarith
  have et : fricTurbulent 0 120000 = 0.25 / (fricA 0 120000 - (fricB 0 120000 - fricA 0 120000) ^ 2 / d) ^ 2 := by
    rw [hdd]; rfl
  obtain ⟨q, hqq⟩ : ∃ q, q = (fricB 0 120000 - fricA 0 120000) ^ 2 / d := ⟨_, rfl⟩
  rw [← hqq] at hq et
  have hx : 16.598 ≤ (fricA 0 120000 - q) ^ 2 := by rw [ha]; nlinarith
  have hcode : fricTurbulent 0 120000 ≤ 0.25 / 16.598 := by
    rw [et]
    exact div_le_div_of_nonneg_left (by norm_num) (by norm_num) hx
  rw [hd]
  have : (1.14 : ℝ) * (0.25 / 16.598) < 1 / 57.76 := by norm_num
  linarith

/-- There is such a factor. -/
example : ∃ f, 0 < f ∧ c69Colebrook 0 120000 f := by
  have hcont : ContinuousOn (fun y : ℝ => y + 2 * log10 (2.51 * y / 120000)) (Set.Icc 7 7.6) := by
    unfold log10 Real.logb
    apply ContinuousOn.add continuousOn_id
    apply ContinuousOn.mul continuousOn_const
    apply ContinuousOn.div_const
    apply ContinuousOn.log (by fun_prop)
    intro y hy
    have := hy.1
    positivity
  have h7 : (fun y : ℝ => y + 2 * log10 (2.51 * y / 120000)) 7 ≤ 0 := by
    have h := le_log10 (x := (2.51 * 7 / 120000 : ℝ)⁻¹) (p := 7) (q := 2) (by norm_num) (by norm_num)
    have e : log10 ((2.51 * 7 / 120000 : ℝ)⁻¹) = -log10 (2.51 * 7 / 120000) := Real.logb_inv _ _
    rw [e] at h
    push_cast at h
    show (7 : ℝ) + 2 * log10 (2.51 * 7 / 120000) ≤ 0
    linarith
  have h76 : 0 ≤ (fun y : ℝ => y + 2 * log10 (2.51 * y / 120000)) 7.6 := by
    have h := log10_le (x := (2.51 * 7.6 / 120000 : ℝ)⁻¹) (p := 19) (q := 5) (by norm_num) (by norm_num) (by norm_num)
    have e : log10 ((2.51 * 7.6 / 120000 : ℝ)⁻¹) = -log10 (2.51 * 7.6 / 120000) := Real.logb_inv _ _
    rw [e] at h
    push_cast at h
    show (0 : ℝ) ≤ 7.6 + 2 * log10 (2.51 * 7.6 / 120000)
    linarith
  obtain ⟨y, hy, hy0⟩ := intermediate_value_Icc (by norm_num) hcont ⟨h7, h76⟩
  have hyp : 0 < y := by have := hy.1; linarith
  refine ⟨1 / y ^ 2, by positivity, ?_⟩
  unfold c69Colebrook
  have es : √(1 / y ^ 2) = 1 / y := by
    rw [show 1 / y ^ 2 = (1 / y) ^ 2 by ring]
    exact Real.sqrt_sq (by positivity)
  have earg : (0 : ℝ) / 3.7 + 2.51 / (120000 * (1 / y)) = 2.51 * y / 120000 := by
    field_simp; norm_num
  rw [es, earg, one_div_one_div]
  have : y + 2 * log10 (2.51 * y / 120000) = 0 := hy0
  linarith

private theorem darcy8_range (rOverD : ℝ) {ret : ℝ} (h : 4000 ≤ ret) :
    0 < darcy rOverD ret / 8 ∧ √(darcy rOverD ret / 8) ≤ 0.2083 := by
  obtain ⟨h1, h2, -⟩ := c69_darcy rOverD ret
  refine ⟨by linarith, ?_⟩
  rw [Real.sqrt_le_left (by norm_num)]
  have := h2 (by linarith)
  nlinarith

private theorem two_thirds {pr : ℝ} (h : 1 / 2 ≤ pr) : 0.629 ≤ pr ^ ((2 : ℝ) / 3) := by
  have h1 : ((1 : ℝ) / 2) ^ ((2 : ℝ) / 3) ≤ pr ^ ((2 : ℝ) / 3) :=
    Real.rpow_le_rpow (by norm_num) h (by norm_num)
  refine le_trans ?_ h1
  have h2 : ((0.629 : ℝ) ^ 3) ^ ((1 : ℝ) / 3) ≤ (((1 : ℝ) / 2) ^ 2) ^ ((1 : ℝ) / 3) :=
    Real.rpow_le_rpow (by norm_num) (by norm_num) (by norm_num)
  rw [← Real.rpow_natCast, ← Real.rpow_natCast, ← Real.rpow_mul (by norm_num), ← Real.rpow_mul (by norm_num)] at h2
  norm_num at h2 ⊢
  exact h2

/-- For Prandtl numbers from one half on, nothing is divided by zero in the Nusselt number and it is positive, at every
roughness and Reynolds number. -/
theorem c69_nusselt {prandtl : ℝ} (h : 1 / 2 ≤ prandtl) (rOverD re : ℝ) :
    0 < nusselt prandtl rOverD re ∧
    (2300 < re → 0 < gnielinskiDen (darcy rOverD (max re 4000) / 8) (limitRange 0 prandtl (1 / dblEps))) := by
  have hE := dblEps_pos (K := ℝ)
  have hE1 := dblEps_lt_one (K := ℝ)
  have hcap : 1 ≤ 1 / (dblEps : ℝ) := by rw [le_div_iff₀ hE]; linarith
  obtain ⟨pr, hpr⟩ : ∃ pr, pr = limitRange 0 prandtl (1 / (dblEps : ℝ)) := ⟨_, rfl⟩
  have hpr2 : 1 / 2 ≤ pr := by
    rw [hpr]
    exact le_max_of_le_left (le_min h (by linarith))
  obtain ⟨d1, d2⟩ := darcy8_range rOverD (ret := max re 4000) (le_max_right _ _)
  have hden : 0 < gnielinskiDen (darcy rOverD (max re 4000) / 8) pr := by
    unfold gnielinskiDen
    have := two_thirds hpr2
    have hs := Real.sqrt_nonneg (darcy rOverD (max re 4000) / 8)
    have h1 : √(darcy rOverD (max re 4000) / 8) * (0.629 - 1) ≤ √(darcy rOverD (max re 4000) / 8) * (pr ^ ((2 : ℝ) / 3) - 1) :=
      mul_le_mul_of_nonneg_left (by linarith) hs
    linarith
  refine ⟨?_, fun _ => hpr ▸ hden⟩
  by_cases hf : regimeFactor re > 0
  · have e : nusselt prandtl rOverD re = 3.66 * (1 - regimeFactor re) +
        darcy rOverD (max re 4000) / 8 * (max re 4000 - 1000) * limitRange 0 prandtl (1 / dblEps) /
        gnielinskiDen (darcy rOverD (max re 4000) / 8) (limitRange 0 prandtl (1 / dblEps)) * regimeFactor re := if_pos hf
    rw [e, ← hpr]
    have hm : (4000 : ℝ) ≤ max re 4000 := le_max_right _ _
    have ht : 0 < darcy rOverD (max re 4000) / 8 * (max re 4000 - 1000) * pr /
        gnielinskiDen (darcy rOverD (max re 4000) / 8) pr :=
      div_pos (mul_pos (mul_pos d1 (by linarith)) (by linarith)) hden
    have h1 := (regime_range re).2
    have := mul_pos ht hf
    nlinarith
  · have e : nusselt prandtl rOverD re = 3.66 := if_neg hf
    rw [e]; norm_num

private theorem sq_range {a q : ℝ} (a1 : 0.85 ≤ a) (a2 : a ≤ 7 / 8) (q0 : 0 ≤ q) (q1 : q ≤ 0.017) :
    0.7 ≤ (-a - q) ^ 2 ∧ (-a - q) ^ 2 ≤ 1 := by
  constructor <;> nlinarith

private theorem ratio_le {A B C : ℝ} (A1 : 0.13813 ≤ A) (B1 : 0.1362 ≤ B) (B2 : B ≤ 0.13624) (C1 : 0.1369 ≤ C) :
    (C * A / (B * B))⁻¹ ≤ 0.984 := by
  have hB0 : 0 < B := by linarith
  have hC0 : 0 < C := by linarith
  have hA0 : 0 < A := by linarith
  rw [inv_div, div_le_iff₀ (by positivity)]
  have : 0.1369 * 0.13813 ≤ C * A := mul_le_mul C1 A1 (by norm_num) hC0.le
  nlinarith

/-- A pipe of a roughness of half its diameter, at the end of the transition. -/
private theorem rough_factor : 0.25 ≤ darcy (1 / 2) 4000 := by
  have hrr : relRoughness (1 / 2) = 5 / 37 := by
    unfold relRoughness limitRange; norm_num
  have hd : darcy (1 / 2) 4000 = fricTurbulent (5 / 37) 4000 := by
    have h1 := regime_one (re := 4000) le_rfl
    have e : darcy (1 / 2) 4000 = 64 / limitRange dblEps 4000 reLaminar * (1 - regimeFactor 4000) +
      fricTurbulent (relRoughness (1 / 2)) (max 4000 reTransition) * regimeFactor 4000 :=
        if_pos (by rw [h1]; norm_num)
    have hm : max (4000 : ℝ) reTransition = 4000 := max_self _
    rw [e, h1, hrr, hm]; ring
  obtain ⟨k1, k2, k3, k4, k5⟩ := fric_core (rod := 5 / 37) (ret := 4000) (by norm_num) (by norm_num) (by norm_num)
  obtain ⟨α, hα⟩ : ∃ α, α = -fricA (5 / 37) 4000 := ⟨_, rfl⟩
  have hfa : fricA (5 / 37) 4000 = -α := by rw [hα]; ring
  have α1 : 0.85 ≤ α := by
    have := fricA_le (rOverD := 1 / 2) (ret := 4000) le_rfl
    rw [hrr] at this; rw [hα]; linarith
  have α2 : α ≤ 7 / 8 := by
    have h := log10_le (x := ((5 / 37 + 12 / 4000 : ℝ))⁻¹) (p := 7) (q := 8) (by norm_num) (by norm_num) (by norm_num)
    have e : log10 ((5 / 37 + 12 / 4000 : ℝ)⁻¹) = -log10 (5 / 37 + 12 / 4000) := Real.logb_inv _ _
    rw [e] at h
    push_cast at h
    rw [hα]; exact h
  obtain ⟨β, hβ⟩ : ∃ β, β = -fricB (5 / 37) 4000 := ⟨_, rfl⟩
  have hfb : fricB (5 / 37) 4000 = -β := by rw [hβ]; ring
  obtain ⟨B, hB⟩ : ∃ B, B = 5 / 37 - 5.02 * fricA (5 / 37) 4000 / 4000 := ⟨_, rfl⟩
  have B1 : 0.1362 ≤ B := by rw [hB, hfa]; linarith
  have B2 : B ≤ 0.13624 := by rw [hB, hfa]; linarith
  have β1 : 0.85 ≤ β := by
    have h := le_log10 (x := (0.13624 : ℝ)⁻¹) (p := 17) (q := 20) (by norm_num) (by norm_num)
    have e : log10 ((0.13624 : ℝ)⁻¹) = -log10 0.13624 := Real.logb_inv _ _
    rw [e] at h
    push_cast at h
    have h2 := log10_mono (by linarith) B2
    have h3 : log10 B = -β := by rw [hB, ← hfb]; rfl
    linarith
  obtain ⟨C, hC⟩ : ∃ C, C = 5 / 37 + 10.04 * fricA (5 / 37) 4000 * fricB (5 / 37) 4000 / 4000 := ⟨_, rfl⟩
  have C1 : 0.1369 ≤ C := by rw [hC, hfa, hfb]; have := mul_le_mul α1 β1 (by norm_num) (by linarith); linarith
  obtain ⟨A, hA⟩ : ∃ A : ℝ, A = 5 / 37 + 12 / 4000 := ⟨_, rfl⟩
  have A1 : 0.13813 ≤ A := by rw [hA]; norm_num
  have A2 : A ≤ 0.13814 := by rw [hA]; norm_num
  have hL := ln10_gt
  have hL2 := ln10_lt
  have la : log10 A = fricA (5 / 37) 4000 := by rw [hA]; rfl
  have lb : log10 B = fricB (5 / 37) 4000 := by rw [hB]; rfl
  have lc : log10 C = fricC (5 / 37) 4000 := by rw [hC]; rfl
  have hA0 : 0 < A := by linarith
  have hB0 : 0 < B := by linarith
  have hC0 : 0 < C := by linarith
  have den : 0.006 ≤ fricC (5 / 37) 4000 - 2 * fricB (5 / 37) 4000 + fricA (5 / 37) 4000 := by
    have e : fricC (5 / 37) 4000 - 2 * fricB (5 / 37) 4000 + fricA (5 / 37) 4000 = Real.log (C * A / (B * B)) / Real.log 10 := by
      rw [← la, ← lb, ← lc]
      unfold log10 Real.logb
      rw [Real.log_div (by positivity) (by positivity), Real.log_mul hC0.ne' hA0.ne', Real.log_mul hB0.ne' hB0.ne']
      field_simp
      ring
    rw [e, le_div_iff₀ (by linarith)]
    have h1 := Real.one_sub_inv_le_log_of_pos (x := C * A / (B * B)) (by positivity)
    have h2 := ratio_le A1 B1 B2 C1
    linarith
  have num : (fricB (5 / 37) 4000 - fricA (5 / 37) 4000) ^ 2 ≤ 0.0001 := by
    have e : fricA (5 / 37) 4000 - fricB (5 / 37) 4000 = Real.log (A / B) / Real.log 10 := by
      rw [← la, ← lb]
      unfold log10 Real.logb
      rw [Real.log_div hA0.ne' hB0.ne']
      ring
    have h0 : 0 ≤ fricA (5 / 37) 4000 - fricB (5 / 37) 4000 := by
      have := log10_mono hB0 (show B ≤ A by linarith)
      rw [la, lb] at this; linarith
    have h1 : fricA (5 / 37) 4000 - fricB (5 / 37) 4000 ≤ 0.01 := by
      rw [e, div_le_iff₀ (by linarith)]
      have h2 := Real.log_le_sub_one_of_pos (x := A / B) (by positivity)
      have h3 : A / B ≤ 1.02 := by rw [div_le_iff₀ hB0]; linarith
      linarith
    have h2 := pow_le_pow_left₀ h0 h1 2
    have e2 : (fricB (5 / 37) 4000 - fricA (5 / 37) 4000) ^ 2 = (fricA (5 / 37) 4000 - fricB (5 / 37) 4000) ^ 2 := by ring
    rw [e2]
    refine h2.trans ?_
    norm_num
  have q1 : (fricB (5 / 37) 4000 - fricA (5 / 37) 4000) ^ 2 /
      (fricC (5 / 37) 4000 - 2 * fricB (5 / 37) 4000 + fricA (5 / 37) 4000) ≤ 0.017 := by
    rw [div_le_iff₀ k5]
    linarith
  have q0 := div_nonneg (sq_nonneg (fricB (5 / 37) 4000 - fricA (5 / 37) 4000)) k5.le
  obtain ⟨q, hq⟩ : ∃ q, q = (fricB (5 / 37) 4000 - fricA (5 / 37) 4000) ^ 2 /
      (fricC (5 / 37) 4000 - 2 * fricB (5 / 37) 4000 + fricA (5 / 37) 4000) := ⟨_, rfl⟩
  have e : fricTurbulent (5 / 37) 4000 = 0.25 / (fricA (5 / 37) 4000 - q) ^ 2 := by rw [hq]; rfl
  rw [← hq] at q1 q0
  obtain ⟨hx1, hx2⟩ := sq_range α1 α2 q0 q1
  rw [← hfa] at hx1 hx2
  rw [hd, e, le_div_iff₀ (by linarith)]
  linarith

/-- In a rough pipe there is a Prandtl number, less than one half, where the Nusselt number is a division by zero, and below
it the Nusselt number is negative. -/
theorem c69_pole : ∃ pole : ℝ, 0 < pole ∧ pole < 1 / 2 ∧ gnielinskiDen (darcy (1 / 2) 4000 / 8) pole = 0 ∧
    ∀ prandtl, 0 < prandtl → prandtl < pole → nusselt prandtl (1 / 2) 4000 < 0 := by
  have hf := rough_factor
  obtain ⟨s, hs⟩ : ∃ s, s = 12.7 * √(darcy (1 / 2) 4000 / 8) := ⟨_, rfl⟩
  have hs1 : 1 < s := by
    have : (0.1 : ℝ) ≤ √(darcy (1 / 2) 4000 / 8) := by
      apply Real.le_sqrt_of_sq_le
      linarith
    rw [hs]; linarith
  have hbase : 0 < 1 - 1 / s := by
    have : 1 / s < 1 := by rw [div_lt_one (by linarith)]; exact hs1
    linarith
  have hpow : ((1 - 1 / s) ^ ((3 : ℝ) / 2)) ^ ((2 : ℝ) / 3) = 1 - 1 / s := by
    rw [← Real.rpow_mul hbase.le]; norm_num
  have hden : ∀ pr : ℝ, gnielinskiDen (darcy (1 / 2) 4000 / 8) pr = 1 + s * (pr ^ ((2 : ℝ) / 3) - 1) := fun pr => by
    rw [hs]; rfl
  have hp0 : 0 < (1 - 1 / s) ^ ((3 : ℝ) / 2) := Real.rpow_pos_of_pos hbase _
  have hz : gnielinskiDen (darcy (1 / 2) 4000 / 8) ((1 - 1 / s) ^ ((3 : ℝ) / 2)) = 0 := by
    rw [hden, hpow]
    field_simp
    ring
  have hhalf : (1 - 1 / s) ^ ((3 : ℝ) / 2) < 1 / 2 := by
    by_contra hc
    push Not at hc
    have hE := dblEps_pos (K := ℝ)
    have hE1 := dblEps_lt_one (K := ℝ)
    have h1 : (1 - 1 / s) ^ ((3 : ℝ) / 2) ≤ 1 := by
      apply Real.rpow_le_one hbase.le _ (by norm_num)
      have : 0 < 1 / s := by positivity
      linarith
    have h2 := (c69_nusselt hc (1 / 2) 4000).2 (by norm_num)
    rw [max_self, limit_id hp0.le (h1.trans (by rw [le_div_iff₀ hE]; linarith)), hz] at h2
    exact lt_irrefl _ h2
  refine ⟨_, hp0, hhalf, hz, fun prandtl h0 h1 => ?_⟩
  have hE := dblEps_pos (K := ℝ)
  have hE1 := dblEps_lt_one (K := ℝ)
  have hpr : limitRange 0 prandtl (1 / (dblEps : ℝ)) = prandtl := by
    apply limit_id h0.le
    have : (1 : ℝ) ≤ 1 / dblEps := by rw [le_div_iff₀ hE]; linarith
    linarith
  have hone := regime_one (re := 4000) le_rfl
  have e : nusselt prandtl (1 / 2) 4000 = 3.66 * (1 - regimeFactor 4000) +
      darcy (1 / 2) (max 4000 4000) / 8 * (max 4000 4000 - 1000) * limitRange 0 prandtl (1 / dblEps) /
      gnielinskiDen (darcy (1 / 2) (max 4000 4000) / 8) (limitRange 0 prandtl (1 / dblEps)) * regimeFactor 4000 :=
    if_pos (by rw [hone]; norm_num)
  rw [e, hone, hpr, max_self]
  have hneg : gnielinskiDen (darcy (1 / 2) 4000 / 8) prandtl < 0 := by
    rw [← hz, hden, hden]
    have := Real.rpow_lt_rpow h0.le h1 (show (0 : ℝ) < 2 / 3 by norm_num)
    nlinarith
  have : darcy (1 / 2) 4000 / 8 * (4000 - 1000) * prandtl / gnielinskiDen (darcy (1 / 2) 4000 / 8) prandtl < 0 :=
    div_neg_of_pos_of_neg (mul_pos (by nlinarith) h0) hneg
  linarith

/-! ## Convection -/

/-- A pipe's heat transfer coefficient is not negative for Prandtl numbers from one half on, and zero without flow. -/
theorem c69_coefficient {f : Fl} (hp : 1 / 2 ≤ f.prandtl) (hc : 0 ≤ f.conductivity) (flowRate rOverD diameter : ℝ) :
    0 ≤ coefficient flowRate f rOverD diameter ∧
    (|flowRate| ≤ dblEps → coefficient flowRate f rOverD diameter = 0) ∧
    coefficient (-flowRate) f rOverD diameter = coefficient flowRate f rOverD diameter := by
  refine ⟨?_, ?_, ?_⟩
  · by_cases h : |flowRate| > dblEps ∧ diameter > dblEps
    · have e : coefficient flowRate f rOverD diameter = f.conductivity / diameter * nusselt f.prandtl rOverD
          (limitRange dblEps (reynolds f (|flowRate| / f.density / (Real.pi / 4) / diameter / diameter) diameter) reTurbulent) :=
        if_pos h
      rw [e]
      exact mul_nonneg (div_nonneg hc (dblEps_pos.trans h.2).le) (c69_nusselt hp _ _).1.le
    · have e : coefficient flowRate f rOverD diameter = 0 := if_neg h
      exact e.ge
  · intro h
    exact if_neg (fun c => absurd c.1 (not_lt.mpr h))
  · unfold coefficient
    rw [abs_neg]

private theorem conv_on {f : Fl} {flowRate ua wall : ℝ} (h : |flowRate| > dblEps ∧ ua > dblEps) :
    convective f flowRate ua wall =
      ({ f with t := wall + Real.exp (-(min ua (100 * |flowRate| * f.heat f.t) / |flowRate| / f.heat f.t)) * (f.t - wall) },
       |flowRate| * (f.enthalpy f.t - f.enthalpy
        (wall + Real.exp (-(min ua (100 * |flowRate| * f.heat f.t) / |flowRate| / f.heat f.t)) * (f.t - wall)))) := if_pos h

private theorem conv_off {f : Fl} {flowRate ua wall : ℝ} (h : ¬(|flowRate| > dblEps ∧ ua > dblEps)) :
    convective f flowRate ua wall = (f, 0) := if_neg h

private theorem conv_frame (f : Fl) (flowRate ua wall : ℝ) :
    ∃ t, (convective f flowRate ua wall).1 = { f with t := t } ∧
      (convective f flowRate ua wall).2 = |flowRate| * (f.enthalpy f.t - f.enthalpy t) := by
  by_cases h : |flowRate| > dblEps ∧ ua > dblEps
  · rw [conv_on h]; exact ⟨_, rfl, rfl⟩
  · rw [conv_off h]; exact ⟨f.t, rfl, by simp⟩

/-- Convection over a wall takes the fluid's temperature towards that of the wall, never past it, and gives the wall the
enthalpy that the flow loses; with an enthalpy that grows with the temperature, heat goes from hot to cold. The temperature
difference falls by the factor of the exponential law with at most 100 transfer units. -/
theorem c69_convective {f : Fl} (hcp : 0 < f.heat f.t) (hmono : Monotone f.enthalpy) (flowRate ua wall : ℝ) :
    let r := convective f flowRate ua wall
    min f.t wall ≤ r.1.t ∧ r.1.t ≤ max f.t wall ∧
    r.2 = |flowRate| * (f.enthalpy f.t - f.enthalpy r.1.t) ∧
    (wall ≤ f.t → 0 ≤ r.2) ∧ (f.t ≤ wall → r.2 ≤ 0) ∧
    (dblEps < |flowRate| → dblEps < ua →
      r.1.t - wall = Real.exp (-min (ua / (|flowRate| * f.heat f.t)) 100) * (f.t - wall)) ∧
    (|flowRate| ≤ dblEps ∨ ua ≤ dblEps → r = (f, 0)) := by
  intro r
  have key : min f.t wall ≤ r.1.t ∧ r.1.t ≤ max f.t wall ∧ (wall ≤ f.t → r.1.t ≤ f.t) ∧ (f.t ≤ wall → f.t ≤ r.1.t) := by
    by_cases h : |flowRate| > dblEps ∧ ua > dblEps
    · have er : r = _ := conv_on h
      obtain ⟨k, hk⟩ : ∃ k, k = Real.exp (-(min ua (100 * |flowRate| * f.heat f.t) / |flowRate| / f.heat f.t)) := ⟨_, rfl⟩
      have k0 : 0 ≤ k := by rw [hk]; exact (Real.exp_pos _).le
      have k1 : k ≤ 1 := by
        rw [hk, Real.exp_le_one_iff, neg_nonpos]
        have hua : 0 ≤ ua := (dblEps_pos.trans h.2).le
        have : 0 ≤ min ua (100 * |flowRate| * f.heat f.t) :=
          le_min hua (mul_nonneg (mul_nonneg (by norm_num) (abs_nonneg _)) hcp.le)
        exact div_nonneg (div_nonneg this (abs_nonneg _)) hcp.le
      have et : r.1.t = wall + k * (f.t - wall) := by rw [er, hk]
      rw [et]
      rcases le_total f.t wall with hw | hw
      · rw [min_eq_left hw, max_eq_right hw]
        have h1 : 0 ≤ (1 - k) * (wall - f.t) := mul_nonneg (by linarith) (by linarith)
        have h2 : 0 ≤ k * (wall - f.t) := mul_nonneg k0 (by linarith)
        refine ⟨by linarith, by linarith, fun h3 => ?_, fun _ => by linarith⟩
        have : wall - f.t = 0 := by linarith
        rw [this] at h1 h2
        have : f.t - wall = 0 := by linarith
        rw [this, mul_zero]; linarith
      · rw [min_eq_right hw, max_eq_left hw]
        have h1 : 0 ≤ (1 - k) * (f.t - wall) := mul_nonneg (by linarith) (by linarith)
        have h2 : 0 ≤ k * (f.t - wall) := mul_nonneg k0 (by linarith)
        refine ⟨by linarith, by linarith, fun _ => by linarith, fun h3 => ?_⟩
        have : f.t - wall = 0 := by linarith
        rw [this, mul_zero]; linarith
    · have er : r = _ := conv_off h
      rw [er]
      exact ⟨min_le_left _ _, le_max_left _ _, fun _ => le_rfl, fun _ => le_rfl⟩
  have hheat : r.2 = |flowRate| * (f.enthalpy f.t - f.enthalpy r.1.t) := by
    obtain ⟨t, e1, e2⟩ := conv_frame f flowRate ua wall
    have e1' : r.1.t = t := by show (convective f flowRate ua wall).1.t = t; rw [e1]
    rw [e1']; exact e2
  refine ⟨key.1, key.2.1, hheat, fun h => ?_, fun h => ?_, fun h1 h2 => ?_, fun h => ?_⟩
  · rw [hheat]
    exact mul_nonneg (abs_nonneg _) (sub_nonneg.mpr (hmono (key.2.2.1 h)))
  · rw [hheat]
    exact mul_nonpos_of_nonneg_of_nonpos (abs_nonneg _) (sub_nonpos.mpr (hmono (key.2.2.2 h)))
  · have er : r = _ := conv_on ⟨h1, h2⟩
    rw [er]
    have hm : 0 < |flowRate| := dblEps_pos.trans h1
    have e : min ua (100 * |flowRate| * f.heat f.t) / |flowRate| / f.heat f.t = min (ua / (|flowRate| * f.heat f.t)) 100 := by
      rw [div_div, ← min_div_div_right (mul_pos hm hcp).le]
      congr 1
      field_simp
    rw [e]
    ring
  · exact conv_off (fun c => by
      rcases h with h | h
      · exact absurd c.1 (not_lt.mpr h)
      · exact absurd c.2 (not_lt.mpr h))

/-- Below the pole of the Nusselt number a pipe passes no heat at all, whatever its area and wall temperature. -/
theorem c69_no_heat : ∃ (f : Fl) (flowRate : ℝ), 0 < f.prandtl ∧ 0 < f.conductivity ∧ 0 < f.density ∧ 0 < f.viscosity ∧
    dblEps < |flowRate| ∧ reynolds f (|flowRate| / f.density / (Real.pi / 4) / 1 / 1) 1 = 4000 ∧
    ∀ area wall, 0 ≤ area → pipe f flowRate (1 / 2) 1 area wall = (f, 0) := by
  obtain ⟨pole, hp0, -, -, hneg⟩ := c69_pole
  have hpi := Real.pi_pos
  have hre : ∀ T : ℝ, reynolds ⟨T, 1, 1, 1, pole / 2, id, fun _ => 1⟩ (|1000 * Real.pi| / 1 / (Real.pi / 4) / 1 / 1) 1 = 4000 := by
    intro T
    unfold reynolds
    rw [abs_of_pos (by positivity)]
    field_simp
    norm_num
  have hfl : dblEps < |1000 * Real.pi| := by
    rw [abs_of_pos (by positivity)]
    have := Real.two_le_pi
    have := dblEps_lt_one (K := ℝ)
    linarith
  refine ⟨⟨300, 1, 1, 1, pole / 2, id, fun _ => 1⟩, 1000 * Real.pi, by positivity, one_pos, one_pos, one_pos, hfl, hre 300,
    fun area wall ha => ?_⟩
  apply conv_off
  rintro ⟨-, h⟩
  have hone := dblEps_lt_one (K := ℝ)
  have e : coefficient (1000 * Real.pi) ⟨300, 1, 1, 1, pole / 2, id, fun _ => 1⟩ (1 / 2) 1 =
      1 / 1 * nusselt (pole / 2) (1 / 2) (limitRange dblEps
        (reynolds ⟨300, 1, 1, 1, pole / 2, id, fun _ => 1⟩ (|1000 * Real.pi| / 1 / (Real.pi / 4) / 1 / 1) 1) reTurbulent) :=
    if_pos ⟨hfl, hone⟩
  rw [e, hre 300, limit_id (by linarith) (by unfold reTurbulent; norm_num)] at h
  have h2 := hneg (pole / 2) (by linarith) (by linarith)
  have h3 : area * (1 / 1 * nusselt (pole / 2) (1 / 2) 4000) ≤ 0 :=
    mul_nonpos_of_nonneg_of_nonpos ha (by linarith)
  have := dblEps_pos (K := ℝ)
  linarith

/-! ## Heat exchanger -/

private theorem override_off {value : ℝ} (h : value ≤ fltEps) (f : Fl) : override value f = f :=
  if_neg (not_lt.mpr h)

private theorem segments_spec {flowRate value : ℝ} (hv : value ≤ fltEps) {lo hi : ℝ} :
    ∀ (l : List (ℝ × ℝ)) (f : Fl), (∀ t, 0 < f.heat t) → Monotone f.enthalpy → lo ≤ f.t → f.t ≤ hi →
      (∀ s ∈ l, lo ≤ s.2 ∧ s.2 ≤ hi) →
      let r := segments flowRate value l f
      (∃ t, r.1 = { f with t := t } ∧ lo ≤ t ∧ t ≤ hi ∧ r.2.sum = |flowRate| * (f.enthalpy f.t - f.enthalpy t)) ∧
      r.2.length = l.length := by
  intro l
  induction l with
  | nil => intro f _ _ h1 h2 _; exact ⟨⟨f.t, rfl, h1, h2, by simp [segments]⟩, rfl⟩
  | cons s ss ih =>
    intro f hcp hm h1 h2 hw r
    obtain ⟨c1, c2, -⟩ := c69_convective (hcp f.t) hm flowRate s.1 s.2
    obtain ⟨t, e1, e2⟩ := conv_frame f flowRate s.1 s.2
    have hws := hw s (List.mem_cons_self ..)
    rw [e1] at c1 c2
    have er : r = ((segments flowRate value ss { f with t := t }).1,
        (convective f flowRate s.1 s.2).2 :: (segments flowRate value ss { f with t := t }).2) := by
      show ((segments flowRate value ss (override value (convective f flowRate s.1 s.2).1)).1,
        (convective f flowRate s.1 s.2).2 :: (segments flowRate value ss (override value (convective f flowRate s.1 s.2).1)).2) = _
      rw [override_off hv, e1]
    obtain ⟨⟨t', k1, k2, k3, k4⟩, k5⟩ := ih { f with t := t } hcp hm (le_trans (le_min h1 hws.1) c1)
      (le_trans c2 (max_le h2 hws.2)) (fun q hq => hw q (List.mem_cons_of_mem _ hq))
    rw [er]
    refine ⟨⟨t', k1, k2, k3, ?_⟩, by rw [List.length_cons, List.length_cons, k5]⟩
    rw [List.sum_cons, k4, e2]
    ring

private theorem foldl_sum' (l : List ℝ) : l.foldl (· + ·) 0 = l.sum := (List.sum_eq_foldl).symm

/-- A heat exchanger of any number of segments, without override: the total is the sum of what the segments gain and is what
the flow loses in enthalpy; the flow's temperature stays in every range that has its own and those of all walls; there is a
gain for each segment. -/
theorem c69_exchanger {f : Fl} (hcp : ∀ t, 0 < f.heat t) (hm : Monotone f.enthalpy) {value : ℝ} (hv : value ≤ fltEps)
    {lo hi : ℝ} (h1 : lo ≤ f.t) (h2 : f.t ≤ hi) {segs : List (ℝ × ℝ)} (hw : ∀ s ∈ segs, lo ≤ s.2 ∧ s.2 ≤ hi)
    (node0 dt flowRate : ℝ) :
    let o := hxUpdate segs value node0 dt flowRate f
    o.total = o.gains.sum ∧ o.total = |flowRate| * (f.enthalpy f.t - f.enthalpy o.fluid.t) ∧
    lo ≤ o.fluid.t ∧ o.fluid.t ≤ hi ∧ o.gains.length = segs.length := by
  intro o
  by_cases h : |flowRate| > dblEps ∧ dt > dblEps
  · obtain ⟨order, ho⟩ : ∃ order, order = if flowRate < 0 then segs.reverse else segs := ⟨_, rfl⟩
    have hmem : ∀ s ∈ order, lo ≤ s.2 ∧ s.2 ≤ hi := by
      intro s hs
      rw [ho] at hs
      split_ifs at hs
      · exact hw s (List.mem_reverse.mp hs)
      · exact hw s hs
    have hlen : order.length = segs.length := by
      rw [ho]; split_ifs
      · exact List.length_reverse
      · rfl
    obtain ⟨⟨t, k1, k2, k3, k4⟩, k5⟩ := segments_spec (flowRate := flowRate) hv order f hcp hm h1 h2 hmem
    have eo : o = { fluid := (segments flowRate value order (override value f)).1
                    gains := if flowRate < 0 then (segments flowRate value order (override value f)).2.reverse
                      else (segments flowRate value order (override value f)).2
                    total := (segments flowRate value order (override value f)).2.foldl (· + ·) 0
                    delta := (segments flowRate value order (override value f)).1.t - node0 } := by
      rw [ho]; exact if_pos h
    rw [override_off hv] at eo
    rw [eo]
    simp only
    rw [k1, foldl_sum', k4]
    refine ⟨?_, rfl, k2, k3, ?_⟩
    · split_ifs
      · rw [List.sum_reverse, k4]
      · rw [k4]
    · split_ifs
      · rw [List.length_reverse, k5, hlen]
      · rw [k5, hlen]
  · have eo : o = { fluid := f, gains := segs.map (fun _ => 0), total := 0, delta := f.t - node0 } := if_neg h
    rw [eo]
    refine ⟨by simp, by simp, h1, h2, by simp⟩

/-- Reversed flow meets the segments in the other order: it is the forward flow through the exchanger turned around. -/
theorem c69_reversed (segs : List (ℝ × ℝ)) (value node0 dt : ℝ) {flowRate : ℝ} (h : 0 < flowRate) (f : Fl) :
    let o := hxUpdate segs value node0 dt (-flowRate) f
    let o' := hxUpdate segs.reverse value node0 dt flowRate f
    o.fluid = o'.fluid ∧ o.gains = o'.gains.reverse ∧ o.total = o'.total := by
  intro o o'
  have hc : ∀ (g : Fl) (a b : ℝ), convective g (-flowRate) a b = convective g flowRate a b := by
    intro g a b; unfold convective; rw [abs_neg]
  have hs : ∀ (l : List (ℝ × ℝ)) (g : Fl), segments (-flowRate) value l g = segments flowRate value l g := by
    intro l
    induction l with
    | nil => intro g; rfl
    | cons s ss ih => intro g; simp only [segments, hc, ih]
  have hneg : -flowRate < 0 := by linarith
  have hpos : ¬ flowRate < 0 := not_lt.mpr h.le
  by_cases hd : |flowRate| > dblEps ∧ dt > dblEps
  · have e1 : o = _ := if_pos (by rw [abs_neg]; exact hd)
    have e2 : o' = _ := if_pos hd
    rw [e1, e2]
    simp only [if_pos hneg, if_neg hpos, hs]
    exact ⟨trivial, trivial, trivial⟩
  · have e1 : o = _ := if_neg (by rw [abs_neg]; exact hd)
    have e2 : o' = _ := if_neg hd
    rw [e1, e2]
    refine ⟨rfl, ?_, rfl⟩
    simp [List.map_reverse]

private theorem segments_equal {flowRate value cp w : ℝ} (hf : dblEps < |flowRate|) (hv : value ≤ fltEps) (hcp : 0 < cp) :
    ∀ (l : List (ℝ × ℝ)) (f : Fl), f.heat = (fun _ => cp) → (∀ s ∈ l, dblEps < s.1 ∧ s.2 = w) →
      (segments flowRate value l f).1.t - w =
        Real.exp (-(l.map (fun s => min (s.1 / (|flowRate| * cp)) 100)).sum) * (f.t - w) := by
  intro l
  induction l with
  | nil => intro f _ _; simp [segments]
  | cons s ss ih =>
    intro f hh hs
    obtain ⟨s1, s2⟩ := hs s (List.mem_cons_self ..)
    have hm : 0 < |flowRate| := dblEps_pos.trans hf
    have e0 : (segments flowRate value (s :: ss) f).1 =
        (segments flowRate value ss (override value (convective f flowRate s.1 s.2).1)).1 := rfl
    rw [e0, override_off hv]
    obtain ⟨t, e1, -⟩ := conv_frame f flowRate s.1 s.2
    have et : t - w = Real.exp (-min (s.1 / (|flowRate| * cp)) 100) * (f.t - w) := by
      have e3 := conv_on (f := f) (wall := s.2) ⟨hf, s1⟩
      have e4 : (convective f flowRate s.1 s.2).1.t = t := by rw [e1]
      rw [e3] at e4
      have e : min s.1 (100 * |flowRate| * f.heat f.t) / |flowRate| / f.heat f.t = min (s.1 / (|flowRate| * cp)) 100 := by
        rw [hh, div_div]
        show min s.1 (100 * |flowRate| * cp) / (|flowRate| * cp) = _
        rw [← min_div_div_right (mul_pos hm hcp).le]
        congr 1
        field_simp
      have e5 : s.2 + Real.exp (-(min s.1 (100 * |flowRate| * f.heat f.t) / |flowRate| / f.heat f.t)) * (f.t - s.2) = t := e4
      rw [e, s2] at e5
      linarith
    rw [e1, ih { f with t := t } hh (fun q hq => hs q (List.mem_cons_of_mem _ hq))]
    show _ * (t - w) = _
    rw [et, List.map_cons, List.sum_cons, neg_add, Real.exp_add]
    ring

/-- With one wall temperature and one specific heat, segments act together as one with the sum of their transfer units; so how
an exchanger is divided does not matter, if it has at most 100 of them. -/
theorem c69_division {f : Fl} {cp : ℝ} (hcp : 0 < cp) (hh : f.heat = fun _ => cp) {value : ℝ} (hv : value ≤ fltEps) {flowRate : ℝ}
    (hf : dblEps < |flowRate|) {dt : ℝ} (hdt : dblEps < dt) (node0 w ua : ℝ) {n : ℕ} (hn : 0 < n) (hua : n * dblEps < ua)
    (hlim : ua ≤ 100 * |flowRate| * cp) :
    (hxUpdate (List.replicate n (ua / n, w)) value node0 dt flowRate f).fluid.t - w =
      Real.exp (-(ua / (|flowRate| * cp))) * (f.t - w) := by
  have hm : 0 < |flowRate| := dblEps_pos.trans hf
  have hn' : (0 : ℝ) < n := by exact_mod_cast hn
  have e : hxUpdate (List.replicate n (ua / n, w)) value node0 dt flowRate f = _ := if_pos ⟨hf, hdt⟩
  rw [e]
  have hrev : (if flowRate < 0 then (List.replicate n (ua / n, w)).reverse else List.replicate n (ua / n, w)) =
      List.replicate n (ua / n, w) := by
    split_ifs
    · exact List.reverse_replicate
    · rfl
  show (segments flowRate value (if flowRate < 0 then (List.replicate n (ua / n, w)).reverse
    else List.replicate n (ua / n, w)) (override value f)).1.t - w = _
  rw [hrev, override_off hv, segments_equal hf hv hcp _ f hh (fun s hs => by
    rw [List.eq_of_mem_replicate hs]
    refine ⟨?_, rfl⟩
    rw [lt_div_iff₀ hn']
    linarith)]
  rw [List.map_replicate, List.sum_replicate, nsmul_eq_mul]
  have hle : ua / n / (|flowRate| * cp) ≤ 100 := by
    rw [div_le_iff₀ (mul_pos hm hcp)]
    have h1 : ua / n ≤ ua := by
      apply div_le_self
      · have := mul_pos hn' (dblEps_pos (K := ℝ)); linarith
      · exact_mod_cast hn
    linarith
  have e3 : (n : ℝ) * min (ua / n / (|flowRate| * cp)) 100 = ua / (|flowRate| * cp) := by
    rw [min_eq_left hle]
    field_simp
  rw [e3]

/-- While the temperature is overridden, the flow leaves with this temperature. -/
theorem c69_override {value : ℝ} (hv : fltEps < value) (segs : List (ℝ × ℝ)) (node0 : ℝ) {dt : ℝ} (hdt : dblEps < dt)
    {flowRate : ℝ} (hf : dblEps < |flowRate|) (f : Fl) :
    (hxUpdate segs value node0 dt flowRate f).fluid.t = value := by
  have ho : ∀ g : Fl, (override value g).t = value := fun g => by
    have e : override value g = { g with t := value } := if_pos hv
    rw [e]
  have hs : ∀ (l : List (ℝ × ℝ)) (g : Fl), g.t = value → (segments flowRate value l g).1.t = value := by
    intro l
    induction l with
    | nil => intro g h; exact h
    | cons s ss ih => intro g _; exact ih _ (ho _)
  have e : hxUpdate segs value node0 dt flowRate f = _ := if_pos ⟨hf, hdt⟩
  rw [e]
  exact hs _ _ (ho f)

/-- The change of temperature shown is that across the exchanger in forward flow. -/
theorem c69_delta (segs : List (ℝ × ℝ)) (value dt flowRate : ℝ) (f : Fl) :
    (hxUpdate segs value f.t dt flowRate f).delta = (hxUpdate segs value f.t dt flowRate f).fluid.t - f.t := by
  by_cases h : |flowRate| > dblEps ∧ dt > dblEps
  · have e : hxUpdate segs value f.t dt flowRate f = _ := if_pos h
    rw [e]
  · have e : hxUpdate segs value f.t dt flowRate f = _ := if_neg h
    rw [e]

/-- In reversed flow the fluid comes from node 1, but is still compared with node 0: an exchanger that exchanges nothing shows a
change of 20 K. -/
theorem c69_delta_reversed (f : Fl) (hT : f.t = 300) :
    (hxUpdate [(0, 300)] 0 280 1 (-1) f).fluid.t = 300 ∧ (hxUpdate [(0, 300)] 0 280 1 (-1) f).total = 0 ∧
    (hxUpdate [(0, 300)] 0 280 1 (-1) f).delta = 20 := by
  have hone := dblEps_lt_one (K := ℝ)
  have hfl : (0 : ℝ) ≤ fltEps := by unfold fltEps; norm_num
  have e : hxUpdate [(0, 300)] 0 280 1 (-1) f = _ := if_pos ⟨by rw [abs_neg, abs_one]; exact hone, hone⟩
  have eseg : segments (-1) 0 [(0, 300)] f = (f, [0]) := by
    have h1 : convective f (-1) 0 300 = (f, 0) := conv_off (fun c => absurd c.2 (not_lt.mpr dblEps_pos.le))
    simp only [segments, h1, override_off hfl]
  rw [e]
  simp only [override_off hfl, show ((-1 : ℝ) < 0) from by norm_num, if_true, List.reverse_singleton, eseg]
  refine ⟨hT, by simp, by rw [hT]; norm_num⟩

/-- Coefficients of segments: together they are the configured one, unless overridden; a degradation of the segment goes before
that of the exchanger; no degradation makes it negative or more than its default. -/
theorem c69_degraded (total : ℝ) {n : ℕ} (hn : 0 < n) :
    ∑ i ∈ Finset.range n, htcDefault total n none i = total ∧
    (∀ o i, 0 ≤ o i → htcDefault total n (some o) i = o i) ∧
    ∀ (s : Seg) (all : Option ℝ), 0 ≤ s.htcDefault →
      0 ≤ segHtc all s ∧ segHtc all s ≤ s.htcDefault ∧
      (∀ d, s.degrade = some d → 0 ≤ d → d ≤ 1 → segHtc all s = s.htcDefault * d) ∧
      (∀ d, s.degrade = none → all = some d → 0 ≤ d → d ≤ 1 → segHtc all s = s.htcDefault * d) ∧
      (s.degrade = none → all = none → segHtc all s = s.htcDefault) := by
  have hn' : (n : ℝ) ≠ 0 := by exact_mod_cast hn.ne'
  refine ⟨?_, fun o i h => if_pos h, fun s all hs => ?_⟩
  · show ∑ i ∈ Finset.range n, total / n = total
    rw [Finset.sum_const, Finset.card_range, nsmul_eq_mul]
    field_simp
  · have hb := fun x => limit_bounds (x := x) hs
    refine ⟨(hb _).1, (hb _).2, fun d e h0 h1 => ?_, fun d e1 e2 h0 h1 => ?_, fun e1 e2 => ?_⟩
    · have : segHtc all s = limitRange 0 (s.htcDefault * d) s.htcDefault := by unfold segHtc; rw [e]
      rw [this, limit_id (mul_nonneg hs h0) (mul_le_of_le_one_right hs h1)]
    · have : segHtc all s = limitRange 0 (s.htcDefault * d) s.htcDefault := by unfold segHtc; rw [e1, e2]
      rw [this, limit_id (mul_nonneg hs h0) (mul_le_of_le_one_right hs h1)]
    · have : segHtc all s = limitRange 0 s.htcDefault s.htcDefault := by unfold segHtc; rw [e1, e2]
      rw [this, limit_id hs le_rfl]

/-- A coefficient that depends on the flow is from 0 to its limit, the same in both directions and, for a coefficient that is
not negative, grows with the flow; the segments together have that of the whole exchanger. -/
theorem c69_dynamic (s : DynSeg) (hl : 0 ≤ s.limit) (mdot d : ℝ) :
    0 ≤ s.update mdot d ∧ s.update mdot d ≤ s.limit ∧ s.update (-mdot) d = s.update mdot d ∧
    (0 ≤ s.coeff1 → 0 ≤ d → ∀ mdot', |mdot| ≤ |mdot'| → s.update mdot d ≤ s.update mdot' d) ∧
    ∀ n : ℕ, 0 < n → n * (dynShare s n).update mdot d = s.update mdot d := by
  refine ⟨(limit_bounds hl).1, (limit_bounds hl).2, ?_, fun hc hd mdot' hle => ?_, fun n hn => ?_⟩
  · unfold DynSeg.update; rw [abs_neg]
  · have hE : (0 : ℝ) < fltEps := by unfold fltEps; norm_num
    have he : 0 ≤ limitRange (0.05 : ℝ) s.exponent 20 :=
      le_trans (by norm_num) (limit_bounds (l := (0.05 : ℝ)) (x := s.exponent) (u := 20) (by norm_num)).1
    have hm : min 10 |mdot| ≤ min 10 |mdot'| := min_le_min_left _ hle
    have hpow : ∀ m : ℝ, m > fltEps → 0 ≤ s.coeff1 * m ^ limitRange (0.05 : ℝ) s.exponent 20 := fun m h =>
      mul_nonneg hc (Real.rpow_nonneg (hE.le.trans h.le) _)
    have hmain : (if min 10 |mdot| > fltEps then s.coeff0 + s.coeff1 * min 10 |mdot| ^ limitRange 0.05 s.exponent 20 else s.coeff0) ≤
        (if min 10 |mdot'| > fltEps then s.coeff0 + s.coeff1 * min 10 |mdot'| ^ limitRange 0.05 s.exponent 20 else s.coeff0) := by
      by_cases h1 : min 10 |mdot| > fltEps
      · have h2 : min 10 |mdot'| > fltEps := lt_of_lt_of_le h1 hm
        rw [if_pos h1, if_pos h2]
        have := mul_le_mul_of_nonneg_left (Real.rpow_le_rpow (hE.le.trans h1.le) hm he) hc
        linarith
      · rw [if_neg h1]
        split_ifs with h2
        · have := hpow _ h2
          linarith
        · exact le_rfl
    exact max_le_max_right _ (min_le_min_right _ (mul_le_mul_of_nonneg_right hmain hd))
  · have hn' : (0 : ℝ) < n := by exact_mod_cast hn
    have e : (if min 10 |mdot| > fltEps then s.coeff0 / n + s.coeff1 / n * min 10 |mdot| ^ limitRange 0.05 s.exponent 20
        else s.coeff0 / n) * d = (if min 10 |mdot| > fltEps then s.coeff0 + s.coeff1 * min 10 |mdot| ^ limitRange 0.05 s.exponent 20
        else s.coeff0) * d / n := by
      split_ifs
      · field_simp
      · field_simp
    have e2 : (dynShare s n).update mdot d = limitRange 0 ((if min 10 |mdot| > fltEps then s.coeff0 / n +
        s.coeff1 / n * min 10 |mdot| ^ limitRange 0.05 s.exponent 20 else s.coeff0 / n) * d) (s.limit / n) := rfl
    rw [e2, e]
    have e3 : s.update mdot d = limitRange 0 ((if min 10 |mdot| > fltEps then s.coeff0 +
        s.coeff1 * min 10 |mdot| ^ limitRange 0.05 s.exponent 20 else s.coeff0) * d) s.limit := rfl
    rw [e3]
    unfold limitRange
    rw [min_div_div_right hn'.le, show (0 : ℝ) = 0 / n by simp, max_div_div_right hn'.le]
    field_simp
    simp

/-! ## Expansion -/

private theorem ratio_pow {r gamma : ℝ} (h0 : 0 < r) (h1 : r < 1) (hg : 1 < gamma) :
    0 < r ^ ((gamma - 1) / gamma) ∧ r ^ ((gamma - 1) / gamma) < 1 :=
  ⟨Real.rpow_pos_of_pos h0 _, Real.rpow_lt_one h0.le h1 (div_pos (by linarith) (by linarith))⟩

/-- The degradation of a segment goes before that of the exchanger; without either there is none. -/
theorem c69_dynamic_degraded (s : DynSeg) (mdot : ℝ) :
    (∀ all d, 0 ≤ d → d ≤ 1 → dynHtc all (some d) mdot s = s.update mdot d) ∧
    (∀ d, 0 ≤ d → d ≤ 1 → dynHtc (some d) none mdot s = s.update mdot d) ∧ dynHtc none none mdot s = s.update mdot 1 ∧
    ∀ all own, ∃ d, 0 ≤ d ∧ d ≤ 1 ∧ dynHtc all own mdot s = s.update mdot d := by
  have h : ∀ d : ℝ, 0 ≤ d → d ≤ 1 → limitRange 0 d 1 = d := by
    intro d h0 h1
    unfold limitRange
    rw [min_eq_left h1, max_eq_left h0]
  refine ⟨?_, ?_, ?_, ?_⟩
  · intro all d h0 h1
    show s.update mdot (limitRange 0 d 1) = _
    rw [h d h0 h1]
  · intro d h0 h1
    show s.update mdot (limitRange 0 d 1) = _
    rw [h d h0 h1]
  · show s.update mdot (limitRange 0 1 1) = _
    rw [h 1 zero_le_one le_rfl]
  · intro all own
    exact ⟨_, (limit_bounds zero_le_one).1, (limit_bounds zero_le_one).2, rfl⟩

/-- A gas that expands gets colder, at most to the isentropic temperature; a liquid does not. -/
theorem c69_expansion {scale p1 p2 t gamma : ℝ} (hs0 : 0 ≤ scale) (hs1 : scale ≤ 1) (h1 : 0 < p1) (h21 : p2 < p1)
    (hr : dblEps < p2 / p1) (ht : 0 < t) (hg : 1 < gamma) :
    let T := isentropic scale p1 p2 true t gamma
    T ≤ t ∧ t * (p2 / p1) ^ ((gamma - 1) / gamma) ≤ T ∧ 0 < T ∧
    isentropic 0 p1 p2 true t gamma = t ∧ isentropic scale p1 p2 false t gamma = t := by
  intro T
  have hone := dblEps_lt_one (K := ℝ)
  have hr0 : 0 < p2 / p1 := dblEps_pos.trans hr
  have hr1 : p2 / p1 < 1 := by rw [div_lt_one h1]; exact h21
  obtain ⟨k0, k1⟩ := ratio_pow hr0 hr1 hg
  obtain ⟨k, hk⟩ : ∃ k, k = (p2 / p1) ^ ((gamma - 1) / gamma) := ⟨_, rfl⟩
  rw [← hk] at k0 k1
  have hform : ∀ sc, isentropic sc p1 p2 true t gamma = t + sc * (t * k - t) := by
    intro sc
    unfold isentropic
    rw [if_pos ⟨rfl, h1⟩, if_pos ⟨hr, hone.trans hg⟩, hk]
  have eT : T = t + scale * (t * k - t) := hform scale
  have a : 0 ≤ scale * (t * (1 - k)) := mul_nonneg hs0 (mul_nonneg ht.le (by linarith))
  have b : 0 ≤ (1 - scale) * (t * (1 - k)) := mul_nonneg (by linarith) (mul_nonneg ht.le (by linarith))
  have c : 0 < t * k := mul_pos ht k0
  rw [← hk, eT]
  refine ⟨by linarith, by linarith, by linarith, ?_, ?_⟩
  · rw [hform 0]; ring
  · exact if_neg (fun c => by cases c.1)

private theorem tuned_core {deltaT pd : ℝ} {f : Gas} (hp : pd < f.p) (hpd : dblEps ≤ pd) (hr : dblEps < pd / f.p)
    (ht : 0 < f.t) (hg : 1 < f.gamma) :
    ∃ scale, tunedScale deltaT f f.p pd = some scale ∧
      isentropic scale f.p pd true f.t f.gamma = max (f.t - |deltaT|) (f.t * (pd / f.p) ^ ((f.gamma - 1) / f.gamma)) := by
  have hone := dblEps_lt_one (K := ℝ)
  have hE := dblEps_pos (K := ℝ)
  have hp0 : 0 < f.p := by linarith
  have hr1 : pd / f.p < 1 := by rw [div_lt_one hp0]; exact hp
  obtain ⟨k0, k1⟩ := ratio_pow (hE.trans hr) hr1 hg
  obtain ⟨k, hk⟩ : ∃ k, k = (pd / f.p) ^ ((f.gamma - 1) / f.gamma) := ⟨_, rfl⟩
  rw [← hk] at k0 k1 ⊢
  have hden : 0 < f.t * (1 - k) := mul_pos ht (by linarith)
  have ed : f.t * (k - 1) = -(f.t * (1 - k)) := by ring
  have es : tunedScale deltaT f f.p pd = some (limitRange 0 (|deltaT| / (f.t * (1 - k))) 1) := by
    unfold tunedScale
    simp only [← hk]
    rw [ed, if_neg (neg_ne_zero.mpr hden.ne'), neg_div_neg_eq]
  refine ⟨_, es, ?_⟩
  have hform : ∀ sc, isentropic sc f.p pd true f.t f.gamma = f.t + sc * (f.t * k - f.t) := by
    intro sc
    unfold isentropic
    rw [if_pos ⟨rfl, hp0⟩, if_pos ⟨hr, hone.trans hg⟩, hk]
  have hnn : 0 ≤ |deltaT| / (f.t * (1 - k)) := div_nonneg (abs_nonneg _) hden.le
  rw [hform]
  rcases le_total (|deltaT|) (f.t * (1 - k)) with h | h
  · rw [limit_id hnn (by rw [div_le_one hden]; exact h), max_eq_left (by linarith)]
    have : |deltaT| / (f.t * (1 - k)) * (f.t * k - f.t) = -|deltaT| := by
      rw [show f.t * k - f.t = -(f.t * (1 - k)) by ring, mul_neg, div_mul_cancel₀ _ hden.ne']
    linarith
  · have : 1 ≤ |deltaT| / (f.t * (1 - k)) := by rw [le_div_iff₀ hden]; linarith
    have e : limitRange 0 (|deltaT| / (f.t * (1 - k))) 1 = 1 := by
      unfold limitRange; rw [min_eq_right this]; norm_num
    rw [e, max_eq_right (by linarith)]
    ring

/-- The tuned scale factor makes the gas that flows from the higher to the lower pressure cool down by the given difference, or
by all that is possible, in either direction. -/
theorem c69_tuned {deltaT : ℝ} {up down : Gas} (hp : down.p < up.p) (hp1 : dblEps ≤ down.p) (hr : dblEps < down.p / up.p)
    (hgas : up.gas = true) (ht : 0 < up.t) (hg : 1 < up.gamma) :
    ∃ scale, predictScale deltaT up down = some scale ∧ predictScale deltaT down up = some scale ∧
      isentropic scale up.p down.p true up.t up.gamma =
        max (up.t - |deltaT|) (up.t * (down.p / up.p) ^ ((up.gamma - 1) / up.gamma)) := by
  obtain ⟨sc, h1, h2⟩ := tuned_core (deltaT := deltaT) hp hp1 hr ht hg
  have hE := dblEps_pos (K := ℝ)
  have e0 : max dblEps up.p = up.p := max_eq_right (by linarith)
  have e1 : max dblEps down.p = down.p := max_eq_right hp1
  refine ⟨sc, ?_, ?_, h2⟩
  · unfold predictScale
    simp only [e0, e1]
    rw [if_pos ⟨hp.le, hgas⟩, h1]
  · unfold predictScale
    simp only [e0, e1]
    rw [if_neg (fun c => absurd c.1 (not_le.mpr hp)), if_pos ⟨hp.le, hgas⟩, h1]

/-- At equal pressures the tuning divides by zero. -/
theorem c69_tuned_equal (deltaT : ℝ) (f0 f1 : Gas) (h : f0.p = f1.p) (hg : f0.gas = true) : predictScale deltaT f0 f1 = none := by
  unfold predictScale tunedScale
  simp only [h]
  rw [if_pos ⟨le_rfl, hg⟩, div_self (lt_of_lt_of_le dblEps_pos (le_max_left _ _)).ne', Real.one_rpow, sub_self, mul_zero, if_pos rfl]

/-! ## Examples -/

/-- Water-like fluid at 300 K with constant specific heat. -/
private noncomputable def water : Fl := ⟨300, 1000, 1 / 1000, 3 / 5, 7, fun t => 4 * t, fun _ => 4⟩

private theorem small : (dblEps : ℝ) < 1 / 1000 := by unfold dblEps; norm_num

example : 1 / 2 ≤ water.prandtl ∧ 0 ≤ water.conductivity ∧ (∀ t, 0 < water.heat t) ∧ Monotone water.enthalpy ∧
    dblEps < |(1 : ℝ)| := by
  refine ⟨by norm_num [water], by norm_num [water], fun t => by norm_num [water], fun a b h => ?_, ?_⟩
  · show 4 * a ≤ 4 * b
    linarith
  · rw [abs_one]; exact dblEps_lt_one

/-- The fluid gives heat to a colder wall. -/
example : 0 < (convective water 1 4 200).2 ∧ (convective water 1 4 200).1.t < 300 ∧ 200 < (convective water 1 4 200).1.t := by
  have hone := dblEps_lt_one (K := ℝ)
  have h : |(1 : ℝ)| > dblEps ∧ (4 : ℝ) > dblEps := by rw [abs_one]; exact ⟨hone, by linarith⟩
  rw [conv_on h]
  have e : min (4 : ℝ) (100 * |(1 : ℝ)| * water.heat water.t) / |(1 : ℝ)| / water.heat water.t = 1 := by
    show min (4 : ℝ) (100 * |(1 : ℝ)| * 4) / |(1 : ℝ)| / 4 = 1
    rw [abs_one]; norm_num
  rw [e]
  have k0 := Real.exp_pos (-1)
  have k1 : Real.exp (-1) < 1 := by
    rw [Real.exp_lt_one_iff]; norm_num
  have ht : water.t = 300 := rfl
  have he : ∀ t, water.enthalpy t = 4 * t := fun _ => rfl
  simp only [ht, he, abs_one]
  refine ⟨by linarith, by linarith, by linarith⟩

/-- Two segments between walls of 200 and 350 K. -/
example : ∀ s ∈ [((4 : ℝ), (200 : ℝ)), (4, 350)], 200 ≤ s.2 ∧ s.2 ≤ 350 := by
  intro s hs
  rcases List.mem_cons.mp hs with rfl | hs
  · norm_num
  · rw [List.mem_singleton.mp hs]; norm_num

example : (3 : ℕ) * (dblEps : ℝ) < 4 ∧ (4 : ℝ) ≤ 100 * |1| * 4 := by
  have := small
  rw [abs_one]
  exact ⟨by push_cast; linarith, by norm_num⟩

/-- A gas that expands to half the pressure. -/
example : let up : Gas := ⟨200, 300, 7 / 5, true⟩
    let down : Gas := ⟨100, 250, 7 / 5, true⟩
    down.p < up.p ∧ dblEps ≤ down.p ∧ dblEps < down.p / up.p ∧ up.gas = true ∧ 0 < up.t ∧ 1 < up.gamma := by
  have := small
  refine ⟨by norm_num, by show dblEps ≤ (100 : ℝ); linarith, ?_, rfl, by norm_num, by norm_num⟩
  show dblEps < (100 : ℝ) / 200
  linarith

/-- A segment of which the malfunction leaves a quarter while that of the exchanger would leave a half. -/
example : segHtc (some (1 / 2)) ⟨8, 300, some (1 / 4)⟩ = 2 := by
  unfold segHtc limitRange
  norm_num

end Gunns.Props
