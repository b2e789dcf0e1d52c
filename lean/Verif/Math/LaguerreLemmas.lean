import Verif.Math.Laguerre
import Mathlib.Algebra.Polynomial.Derivative
import Mathlib.Algebra.Polynomial.Eval.Degree
import Mathlib.Algebra.Order.Chebyshev
import Mathlib.Analysis.SpecialFunctions.Pow.Real
import Mathlib.Tactic.FieldSimp
import Mathlib.Tactic.LinearCombination

/-!
# Lemmas on Laguerre's method
-/

set_option linter.unusedSectionVars false

namespace Gunns.Laguerre

open Polynomial Finset

/-- The polynomial whose coefficients are `c 0`, …, `c m`. -/
noncomputable def poly (c : ℕ → ℂ) (m : ℕ) : ℂ[X] := ∑ j ∈ range (m + 1), C (c j) * X ^ j

/-- The part of the polynomial read after `k` turns of the evaluation loop. -/
noncomputable def part (c : ℕ → ℂ) (m k : ℕ) : ℂ[X] := ∑ i ∈ range (k + 1), C (c (m - k + i)) * X ^ i

theorem part_succ (c : ℕ → ℂ) {m k : ℕ} (h : k < m) :
    part c m (k + 1) = X * part c m k + C (c (m - 1 - k)) := by
  unfold part
  rw [sum_range_succ', mul_sum]
  congr 1
  · apply sum_congr rfl
    intro i _
    have : m - (k + 1) + (i + 1) = m - k + i := by omega
    rw [this]; ring
  · have : m - (k + 1) + 0 = m - 1 - k := by omega
    rw [this]; simp

theorem part_all (c : ℕ → ℂ) (m : ℕ) : part c m m = poly c m := by
  unfold part poly; simp

/-- The weights in the bound on the rounding. -/
noncomputable def weight (c : ℕ → ℂ) (m k : ℕ) (y : ℝ) : ℝ := ∑ i ∈ range (k + 1), ((i : ℝ) + 1) * ‖c (m - k + i)‖ * y ^ i

theorem weight_succ (c : ℕ → ℂ) {m k : ℕ} (y : ℝ) (h : k < m) :
    weight c m (k + 1) y = (∑ i ∈ range (k + 2), ‖c (m - (k + 1) + i)‖ * y ^ i) + y * weight c m k y := by
  unfold weight
  rw [sum_range_succ' (fun i => ‖c (m - (k + 1) + i)‖ * y ^ i), sum_range_succ', mul_sum, add_right_comm,
    ← sum_add_distrib]
  congr 1
  · apply sum_congr rfl
    intro i _
    have : m - (k + 1) + (i + 1) = m - k + i := by omega
    rw [this]; push_cast; ring
  · push_cast; ring

theorem eval_part_le (c : ℕ → ℂ) (m k : ℕ) (x : ℂ) :
    ‖(part c m k).eval x‖ ≤ ∑ i ∈ range (k + 1), ‖c (m - k + i)‖ * ‖x‖ ^ i := by
  unfold part
  rw [eval_finsetSum]
  refine (norm_sum_le _ _).trans (sum_le_sum ?_)
  intro i _
  rw [eval_mul, eval_C, eval_pow, eval_X, norm_mul, norm_pow]

/-- What the evaluation loop holds after `k` turns. -/
structure Holds (c : ℕ → ℂ) (m : ℕ) (x : ℂ) (k : ℕ) (s : Eval) : Prop where
  b : s.b = (part c m k).eval x
  d : s.d = (derivative (part c m k)).eval x
  f : 2 * s.f = (derivative (derivative (part c m k))).eval x
  nonneg : 0 ≤ s.err
  lower : ‖s.b‖ ≤ s.err
  upper : s.err ≤ weight c m k ‖x‖

theorem evaluate_holds (c : ℕ → ℂ) (m : ℕ) (x : ℂ) : Holds c m x m (evaluate c m x) := by
  apply loop_inv (fun k s => Holds c m x k s)
  · refine ⟨?_, ?_, ?_, norm_nonneg _, le_refl _, ?_⟩
    · simp [part]
    · simp [part]
    · simp [part]
    · simp [weight]
  · intro k hk t ht
    have hb : x * t.b + c (m - 1 - k) = (part c m (k + 1)).eval x := by
      rw [part_succ c hk, ht.b]; simp
    refine ⟨hb, ?_, ?_, ?_, ?_, ?_⟩
    · show x * t.d + t.b = _
      rw [part_succ c hk, ht.b, ht.d]; simp; ring
    · show 2 * (x * t.f + t.d) = _
      rw [part_succ c hk]
      have := ht.f
      have hd := ht.d
      simp only [derivative_add, derivative_mul, derivative_X, derivative_C, one_mul, add_zero, eval_add, eval_mul, eval_X]
      rw [← this, ← hd]; ring
    · exact add_nonneg (norm_nonneg _) (mul_nonneg (norm_nonneg _) ht.nonneg)
    · exact le_add_of_nonneg_right (mul_nonneg (norm_nonneg _) ht.nonneg)
    · show ‖x * t.b + c (m - 1 - k)‖ + ‖x‖ * t.err ≤ _
      rw [weight_succ c ‖x‖ hk, hb]
      exact add_le_add (eval_part_le c m (k + 1) x) (mul_le_mul_of_nonneg_left ht.upper (norm_nonneg _))

theorem csqrt_sq (z : ℂ) : csqrt z * csqrt z = z := by
  have h : csqrt z ^ 2 = z := by
    have := Complex.cpow_nat_inv_pow z (n := 2) (by norm_num)
    rw [Nat.cast_ofNat] at this
    exact this
  rw [← sq, h]

theorem csqrt_real {t : ℝ} (h : 0 ≤ t) : csqrt (t : ℂ) = (Real.sqrt t : ℂ) := by
  unfold csqrt
  rw [Real.sqrt_eq_rpow, Complex.ofReal_cpow h]; norm_num

theorem correction_ne_zero {m : ℕ} (iter : ℕ) (x : ℂ) (s : Eval) (hm : 0 < m) : correction m iter x s ≠ 0 := by
  unfold correction
  dsimp only
  split_ifs with h
  · apply div_ne_zero
    · exact_mod_cast hm.ne'
    · unfold denominator
      dsimp only
      split_ifs with h2
      · rw [max_eq_right h2.le] at h
        exact norm_pos_iff.mp h
      · rw [max_eq_left (not_lt.mp h2)] at h
        exact norm_pos_iff.mp h
  · apply mul_ne_zero
    · have : (0 : ℝ) < 1 + ‖x‖ := by have := norm_nonneg x; linarith
      exact_mod_cast this.ne'
    · exact Complex.exp_ne_zero _

/-- What a pass does. -/
theorem pass_cases (c : ℕ → ℂ) {m : ℕ} (iter : ℕ) (x : ℂ) (hm : 0 < m) :
    (pass c m iter x = .inl x ∧ ‖(evaluate c m x).b‖ ≤ (evaluate c m x).err * dblEps) ∨
      ((evaluate c m x).err * dblEps < ‖(evaluate c m x).b‖ ∧
        pass c m iter x = .inr (x - (if iter % 10 ≠ 0 then 1 else (frac (iter / 10) : ℂ)) * correction m iter x (evaluate c m x))) := by
  have e : pass c m iter x = if ‖(evaluate c m x).b‖ ≤ (evaluate c m x).err * dblEps then .inl x
    else if x = x - correction m iter x (evaluate c m x) then .inl x
    else if iter % 10 ≠ 0 then .inr (x - correction m iter x (evaluate c m x))
    else .inr (x - (frac (iter / 10) : ℂ) * correction m iter x (evaluate c m x)) := by
    unfold pass; rfl
  by_cases h : ‖(evaluate c m x).b‖ ≤ (evaluate c m x).err * dblEps
  · left; exact ⟨by rw [e, if_pos h], h⟩
  · right
    refine ⟨not_le.mp h, ?_⟩
    rw [e, if_neg h, if_neg]
    · by_cases h2 : iter % 10 ≠ 0
      · rw [if_pos h2, if_pos h2, one_mul]
      · rw [if_neg h2, if_neg h2]
    · intro h3
      exact correction_ne_zero iter x (evaluate c m x) hm (by linear_combination h3)

/-- The estimates a search starting at `x` passes satisfy what every pass keeps. -/
theorem go_inv {c : ℕ → ℂ} {m : ℕ} (hm : 0 < m) (P : ℂ → Prop)
    (hP : ∀ iter x y, P x → pass c m iter x = .inr y → P y) :
    ∀ n iter x i r, P x → go c m n iter x = some (i, r) →
      iter ≤ i ∧ i < iter + n ∧ P r ∧ ‖(evaluate c m r).b‖ ≤ (evaluate c m r).err * dblEps := by
  intro n
  induction n with
  | zero => intro iter x i r _ h; cases h
  | succ n ih =>
    intro iter x i r hx h
    rcases pass_cases c iter x hm with ⟨h1, h2⟩ | ⟨_, h2⟩
    · have : go c m (n + 1) iter x = some (iter, x) := by simp only [go, h1]
      rw [this] at h
      cases h
      exact ⟨le_refl _, by omega, hx, h2⟩
    · have h3 : go c m (n + 1) iter x = go c m n (iter + 1) (x - (if iter % 10 ≠ 0 then 1 else (frac (iter / 10) : ℂ)) *
          correction m iter x (evaluate c m x)) := by simp only [go, h2]
      rw [h3] at h
      obtain ⟨a, b, p, e⟩ := ih _ _ _ _ (hP iter x _ hx h2) h
      exact ⟨by omega, by omega, p, e⟩

/-- If the estimate after one pass is a root, the search ends within two passes. -/
theorem solve_two {c : ℕ → ℂ} {m : ℕ} (hm : 0 < m) (x : ℂ)
    (h : (evaluate c m x).err * dblEps < ‖(evaluate c m x).b‖ →
      (poly c m).eval (x - correction m 1 x (evaluate c m x)) = 0) :
    ∃ i r, solve c m x = some (i, r) ∧ i ≤ 2 ∧ (r = x ∨ (poly c m).eval r = 0) := by
  rcases pass_cases c 1 x hm with ⟨h1, _⟩ | ⟨h2, h1⟩
  · refine ⟨1, x, ?_, by omega, Or.inl rfl⟩
    simp only [solve, go, h1]
  · have h0 := h h2
    have e : (1 : ℕ) % 10 ≠ 0 := by norm_num
    rw [if_pos e, one_mul] at h1
    obtain ⟨y, hy⟩ : ∃ y, y = x - correction m 1 x (evaluate c m x) := ⟨_, rfl⟩
    rw [← hy] at h0 h1
    refine ⟨2, y, ?_, le_refl _, Or.inr h0⟩
    have hh := evaluate_holds c m y
    rcases pass_cases c 2 y hm with ⟨h3, _⟩ | ⟨h3, _⟩
    · simp only [solve, go, h1, h3]
    · exfalso
      rw [hh.b, part_all, h0, norm_zero] at h3
      have := mul_nonneg hh.nonneg (dblEps_pos (K := ℝ)).le
      linarith

/-- Both signs give a denominator of zero only if neither is usable. -/
theorem correction_eq {m : ℕ} (iter : ℕ) (x : ℂ) (s : Eval) {g h q : ℂ} (hg : g = s.d / s.b) (hh : h = g * g - 2 * s.f / s.b)
    (hq : q = csqrt (((m : ℂ) - 1) * ((m : ℂ) * h - g * g))) (hne : g ≠ 0 ∨ q ≠ 0) :
    ∃ w, (w = q ∨ w = -q) ∧ g + w ≠ 0 ∧ ‖g - w‖ ≤ ‖g + w‖ ∧ correction m iter x s = (m : ℂ) / (g + w) := by
  have hpos : 0 < max ‖g + q‖ ‖g - q‖ := by
    by_contra hn
    have hn := not_lt.mp hn
    have h1 : g + q = 0 := norm_le_zero_iff.mp ((le_max_left _ _).trans hn)
    have h2 : g - q = 0 := norm_le_zero_iff.mp ((le_max_right _ _).trans hn)
    rcases hne with h3 | h3
    · apply h3; linear_combination (h1 + h2) / 2
    · apply h3; linear_combination (h1 - h2) / 2
  have e : correction m iter x s = if 0 < max ‖g + q‖ ‖g - q‖ then (m : ℂ) / (if ‖g + q‖ < ‖g - q‖ then g - q else g + q)
      else ((1 + ‖x‖ : ℝ) : ℂ) * Complex.exp ((iter : ℂ) * Complex.I) := by
    subst hq hh hg; rfl
  rw [if_pos hpos] at e
  by_cases h4 : ‖g + q‖ < ‖g - q‖
  · rw [if_pos h4] at e
    refine ⟨-q, Or.inr rfl, ?_, ?_, ?_⟩
    · rw [← sub_eq_add_neg]
      exact norm_pos_iff.mp (by rwa [max_eq_right h4.le] at hpos)
    · rw [sub_neg_eq_add, ← sub_eq_add_neg]; exact h4.le
    · rw [e, sub_eq_add_neg]
  · rw [if_neg h4] at e
    refine ⟨q, Or.inl rfl, ?_, not_lt.mp h4, e⟩
    exact norm_pos_iff.mp (by rwa [max_eq_left (not_lt.mp h4)] at hpos)

/-- A product of linear factors and its first two derivatives. -/
theorem prod_derivatives {K : Type _} [Field K] {ι : Type _} [DecidableEq ι] (s : Finset ι) (r : ι → K) (x : K) (h : ∀ i ∈ s, x ≠ r i) :
    (∏ i ∈ s, (X - C (r i))).eval x ≠ 0 ∧
    (derivative (∏ i ∈ s, (X - C (r i)))).eval x = (∏ i ∈ s, (X - C (r i))).eval x * ∑ i ∈ s, 1 / (x - r i) ∧
    (derivative (derivative (∏ i ∈ s, (X - C (r i))))).eval x = (∏ i ∈ s, (X - C (r i))).eval x *
      ((∑ i ∈ s, 1 / (x - r i)) ^ 2 - ∑ i ∈ s, (1 / (x - r i)) ^ 2) := by
  induction s using Finset.induction_on with
  | empty => simp
  | insert a s ha ih =>
    obtain ⟨i0, i1, i2⟩ := ih (fun i hi => h i (mem_insert_of_mem hi))
    have hx : x - r a ≠ 0 := sub_ne_zero.mpr (h a (mem_insert_self _ _))
    rw [prod_insert ha, sum_insert ha, sum_insert ha]
    obtain ⟨Q, hQ⟩ : ∃ Q, Q = ∏ i ∈ s, (X - C (r i)) := ⟨_, rfl⟩
    obtain ⟨S, hS⟩ : ∃ S, S = ∑ i ∈ s, 1 / (x - r i) := ⟨_, rfl⟩
    obtain ⟨T, hT⟩ : ∃ T, T = ∑ i ∈ s, (1 / (x - r i)) ^ 2 := ⟨_, rfl⟩
    rw [← hQ] at i0 i1 i2
    rw [← hS] at i1 i2
    rw [← hT] at i2
    rw [← hQ, ← hS, ← hT]
    have hu : (x - r a) * (1 / (x - r a)) = 1 := mul_one_div_cancel hx
    obtain ⟨u, hu'⟩ : ∃ u, u = 1 / (x - r a) := ⟨_, rfl⟩
    rw [← hu'] at hu ⊢
    refine ⟨?_, ?_, ?_⟩
    · simp [hx, i0]
    · simp only [derivative_mul, derivative_sub, derivative_X, derivative_C, sub_zero, one_mul, eval_add, eval_mul, eval_sub,
        eval_X, eval_C]
      rw [i1]; linear_combination (-(eval x Q)) * hu
    · simp only [derivative_mul, derivative_sub, derivative_add, derivative_X, derivative_C, sub_zero, one_mul, eval_add,
        eval_mul, eval_sub, eval_X, eval_C]
      rw [i1, i2]; linear_combination (-2 * S * (eval x Q)) * hu

/-- A step from a point beside all the roots does not pass the nearest. -/
theorem step_bound {m : ℕ} (u : Fin m → ℝ) (i : Fin m) :
    (m * u i - ∑ j, u j) ^ 2 ≤ ((m : ℝ) - 1) * (m * (∑ j, u j ^ 2) - (∑ j, u j) * ∑ j, u j) := by
  have hm : 1 ≤ m := by have := i.2; omega
  have h1 : (∑ j, u j) = u i + ∑ j ∈ univ.erase i, u j := (add_sum_erase univ u (mem_univ i)).symm
  have h2 : (∑ j, u j ^ 2) = u i ^ 2 + ∑ j ∈ univ.erase i, u j ^ 2 :=
    (add_sum_erase univ (fun j => u j ^ 2) (mem_univ i)).symm
  have h3 : (∑ j ∈ univ.erase i, u j) ^ 2 ≤ (univ.erase i).card * ∑ j ∈ univ.erase i, u j ^ 2 := sq_sum_le_card_mul_sum_sq
  have h4 : ((univ.erase i).card : ℝ) = m - 1 := by
    rw [card_erase_of_mem (mem_univ i), card_univ, Fintype.card_fin]; push_cast [hm]; rfl
  rw [h4] at h3
  rw [h1, h2]
  have hm' : (0 : ℝ) ≤ m := by positivity
  have h5 := mul_le_mul_of_nonneg_left h3 hm'
  obtain ⟨a, ha⟩ : ∃ a, a = ∑ j ∈ univ.erase i, u j := ⟨_, rfl⟩
  obtain ⟨b, hb⟩ : ∃ b, b = ∑ j ∈ univ.erase i, u j ^ 2 := ⟨_, rfl⟩
  rw [← ha, ← hb] at h5 ⊢
  nlinarith [h5]

end Gunns.Laguerre
