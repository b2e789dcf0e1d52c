import Verif.Math.LaguerreLemmas
import Mathlib.Algebra.BigOperators.Field
import Mathlib.Algebra.Polynomial.BigOperators

/-!
# C72 Laguerre's method

The polynomials are Mathlib's: `poly c m` is the sum of `c j X^j` for `j ≤ m`, and derivatives are the formal ones.
-/

namespace Gunns.Props

open Gunns.Laguerre Polynomial Finset

/-- The evaluation loop computes the value of the polynomial, its derivative and half its second derivative. -/
theorem c72_values (c : ℕ → ℂ) (m : ℕ) (x : ℂ) :
    (evaluate c m x).b = (∑ j ∈ range (m + 1), C (c j) * X ^ j : ℂ[X]).eval x ∧
    (evaluate c m x).d = (derivative (∑ j ∈ range (m + 1), C (c j) * X ^ j : ℂ[X])).eval x ∧
    2 * (evaluate c m x).f = (derivative (derivative (∑ j ∈ range (m + 1), C (c j) * X ^ j : ℂ[X]))).eval x := by
  have h := evaluate_holds c m x
  have hb := h.b
  have hd := h.d
  have hf := h.f
  rw [part_all] at hb hd hf
  exact ⟨hb, hd, hf⟩

private theorem eval_poly (c : ℕ → ℂ) (m : ℕ) (x : ℂ) : (poly c m).eval x = ∑ j ∈ range (m + 1), c j * x ^ j := by
  unfold poly; rw [eval_finsetSum]; simp

/-- A root that is returned is one to within the rounding of the evaluation, after at most 80 iterations. -/
theorem c72_returned {c : ℕ → ℂ} {m : ℕ} (hm : 0 < m) {x r : ℂ} {i : ℕ} (h : solve c m x = some (i, r)) :
    1 ≤ i ∧ i ≤ 80 ∧
    ‖∑ j ∈ range (m + 1), c j * r ^ j‖ ≤ dblEps * ∑ j ∈ range (m + 1), ((j : ℝ) + 1) * ‖c j‖ * ‖r‖ ^ j := by
  obtain ⟨h1, h2, _, h3⟩ := go_inv hm (fun _ => True) (fun _ _ _ _ _ => trivial) 80 1 x i r trivial h
  have hh := evaluate_holds c m r
  refine ⟨h1, by omega, ?_⟩
  rw [← eval_poly, ← part_all, ← hh.b]
  have hu := hh.upper
  unfold weight at hu
  simp only [Nat.sub_self, zero_add] at hu
  rw [mul_comm]
  exact h3.trans (mul_le_mul_of_nonneg_right hu (dblEps_pos (K := ℝ)).le)

/-- A root that is returned is exactly a root of a polynomial whose coefficients differ from those given, each by at most
`(j + 1) DBL_EPSILON` of its own size. -/
theorem c72_backward {c : ℕ → ℂ} {m : ℕ} (hm : 0 < m) {x r : ℂ} {i : ℕ} (h : solve c m x = some (i, r)) :
    ∃ e : ℕ → ℂ, (∀ j ≤ m, ‖e j‖ ≤ ((j : ℝ) + 1) * dblEps * ‖c j‖) ∧ ∑ j ∈ range (m + 1), (c j + e j) * r ^ j = 0 := by
  obtain ⟨_, _, h3⟩ := c72_returned hm h
  obtain ⟨P, hP⟩ : ∃ P, P = ∑ j ∈ range (m + 1), c j * r ^ j := ⟨_, rfl⟩
  obtain ⟨w, hw⟩ : ∃ w : ℕ → ℝ, w = fun j : ℕ => ((j : ℝ) + 1) * ‖c j‖ * ‖r‖ ^ j := ⟨_, rfl⟩
  have hw' : (∑ j ∈ range (m + 1), ((j : ℝ) + 1) * ‖c j‖ * ‖r‖ ^ j) = ∑ j ∈ range (m + 1), w j := by rw [hw]
  rw [← hP, hw'] at h3
  have hw0 : ∀ j, 0 ≤ w j := by intro j; rw [hw]; positivity
  obtain ⟨W, hW⟩ : ∃ W, W = ∑ j ∈ range (m + 1), w j := ⟨_, rfl⟩
  rw [← hW] at h3
  have hW0 : 0 ≤ W := by rw [hW]; exact sum_nonneg (fun j _ => hw0 j)
  have he := dblEps_pos (K := ℝ)
  by_cases hWz : W = 0
  · refine ⟨fun _ => 0, fun j _ => by rw [norm_zero]; positivity, ?_⟩
    simp only [add_zero]
    rw [← hP]
    rw [hWz, mul_zero] at h3
    exact norm_le_zero_iff.mp h3
  · have hWp : 0 < W := lt_of_le_of_ne hW0 (Ne.symm hWz)
    refine ⟨fun j => -P * (w j / W : ℝ) / r ^ j, ?_, ?_⟩
    · intro j _
      rw [norm_div, norm_mul, norm_neg, norm_pow, Complex.norm_real, Real.norm_of_nonneg (div_nonneg (hw0 j) hW0)]
      by_cases hr : ‖r‖ ^ j = 0
      · rw [hr, div_zero]; positivity
      · have : ‖P‖ * (w j / W) / ‖r‖ ^ j = ‖P‖ / W * (((j : ℝ) + 1) * ‖c j‖) := by
          rw [hw]; field_simp
        rw [this]
        have h5 : ‖P‖ / W ≤ dblEps := by rw [div_le_iff₀ hWp]; exact h3
        have := mul_le_mul_of_nonneg_right h5 (show 0 ≤ ((j : ℝ) + 1) * ‖c j‖ by positivity)
        linarith
    · have h6 : ∀ j, (c j + -P * (w j / W : ℝ) / r ^ j) * r ^ j = c j * r ^ j - P * (w j / W : ℝ) := by
        intro j
        by_cases hr : r ^ j = 0
        · have : w j = 0 := by
            rw [hw]; show ((j : ℝ) + 1) * ‖c j‖ * ‖r‖ ^ j = 0
            rw [← norm_pow, hr, norm_zero, mul_zero]
          rw [this, hr]; simp
        · field_simp; ring
      simp only [h6]
      rw [sum_sub_distrib, ← hP, ← mul_sum, ← Complex.ofReal_sum, ← sum_div, ← hW, div_self hWz]
      simp

/-- An estimate that is already a root is returned as it is. -/
theorem c72_kept {c : ℕ → ℂ} {m : ℕ} (hm : 0 < m) {x : ℂ} (h : ∑ j ∈ range (m + 1), c j * x ^ j = 0) :
    solve c m x = some (1, x) := by
  have hh := evaluate_holds c m x
  rcases pass_cases c 1 x hm with ⟨h1, _⟩ | ⟨h2, _⟩
  · simp only [solve, go, h1]
  · exfalso
    rw [hh.b, part_all, eval_poly, h, norm_zero] at h2
    have := mul_nonneg hh.nonneg (dblEps_pos (K := ℝ)).le
    linarith

private theorem b_ne {c : ℕ → ℂ} {m : ℕ} {x : ℂ} (h : (evaluate c m x).err * dblEps < ‖(evaluate c m x).b‖) :
    (evaluate c m x).b ≠ 0 := by
  have hh := evaluate_holds c m x
  intro h0
  rw [h0, norm_zero] at h
  have := mul_nonneg hh.nonneg (dblEps_pos (K := ℝ)).le
  linarith

/-- A linear polynomial is solved exactly by one step, from any estimate. -/
theorem c72_linear {c : ℕ → ℂ} (hc : c 1 ≠ 0) (x : ℂ) :
    ∃ i r, solve c 1 x = some (i, r) ∧ i ≤ 2 ∧ (r = x ∨ c 0 + c 1 * r = 0) := by
  obtain ⟨i, r, h1, h2, h3⟩ := solve_two (c := c) one_pos x (by
    intro hb
    have hb := b_ne hb
    obtain ⟨s, hs⟩ : ∃ s, s = evaluate c 1 x := ⟨_, rfl⟩
    have e1 : s.b = x * c 1 + c 0 := by rw [hs]; rfl
    have e2 : s.d = x * 0 + c 1 := by rw [hs]; rfl
    rw [← hs] at hb ⊢
    obtain ⟨w, hw, hne, _, hx⟩ := correction_eq (m := 1) 1 x s rfl rfl rfl (Or.inl (by
      rw [e2, mul_zero, zero_add]; exact div_ne_zero hc hb))
    have hw0 : w = 0 := by
      have hz : csqrt ((((1 : ℕ) : ℂ) - 1) * (((1 : ℕ) : ℂ) * (s.d / s.b * (s.d / s.b) - 2 * s.f / s.b) - s.d / s.b * (s.d / s.b))) = 0 := by
        have := csqrt_sq ((((1 : ℕ) : ℂ) - 1) * (((1 : ℕ) : ℂ) * (s.d / s.b * (s.d / s.b) - 2 * s.f / s.b) - s.d / s.b * (s.d / s.b)))
        rw [show (((1 : ℕ) : ℂ) - 1) = 0 by norm_num, zero_mul] at this ⊢
        exact mul_self_eq_zero.mp this
      rcases hw with hw | hw
      · rw [hw, hz]
      · rw [hw, hz, neg_zero]
    rw [hx, hw0, eval_poly]
    rw [e2, mul_zero, zero_add, add_zero, Nat.cast_one]
    rw [sum_range_succ, sum_range_one, pow_zero, pow_one, mul_one, one_div_div, e1]
    field_simp; ring)
  refine ⟨i, r, h1, h2, h3.imp id ?_⟩
  intro h
  rw [eval_poly, sum_range_succ, sum_range_one] at h
  simpa using h

private theorem eval_two (c : ℕ → ℂ) (x : ℂ) : (poly c 2).eval x = c 0 * x ^ 0 + c 1 * x ^ 1 + c 2 * x ^ 2 := by
  rw [eval_poly]; simp [sum_range_succ]

/-- A quadratic is solved exactly by one step, from any estimate: the root returned within two iterations is the estimate, which
then was a root to within the rounding, or satisfies the equation. -/
theorem c72_quadratic {c : ℕ → ℂ} (hc : c 2 ≠ 0) (x : ℂ) :
    ∃ i r, solve c 2 x = some (i, r) ∧ i ≤ 2 ∧ (r = x ∨ c 0 + c 1 * r + c 2 * r ^ 2 = 0) := by
  obtain ⟨i, r, h1, h2, h3⟩ := solve_two (c := c) two_pos x (by
    intro hb
    have hb := b_ne hb
    obtain ⟨s, hs⟩ : ∃ s, s = evaluate c 2 x := ⟨_, rfl⟩
    have e1 : s.b = c 0 + c 1 * x + c 2 * x ^ 2 := by
      rw [hs, show (evaluate c 2 x).b = x * (x * c 2 + c 1) + c 0 from rfl]; ring
    have e2 : s.d = c 1 + 2 * c 2 * x := by
      rw [hs, show (evaluate c 2 x).d = x * (x * 0 + c 2) + (x * c 2 + c 1) from rfl]; ring
    have e3 : s.f = c 2 := by
      rw [hs, show (evaluate c 2 x).f = x * (x * 0 + 0) + (x * 0 + c 2) from rfl]; ring
    rw [← hs] at hb ⊢
    obtain ⟨g, hg⟩ : ∃ g, g = s.d / s.b := ⟨_, rfl⟩
    obtain ⟨h, hh⟩ : ∃ h, h = g * g - 2 * s.f / s.b := ⟨_, rfl⟩
    obtain ⟨q, hq⟩ : ∃ q, q = csqrt ((((2 : ℕ) : ℂ) - 1) * (((2 : ℕ) : ℂ) * h - g * g)) := ⟨_, rfl⟩
    have hqq : q * q = 2 * h - g * g := by rw [hq, csqrt_sq]; push_cast; ring
    have hgb : g * s.b = s.d := by rw [hg]; exact div_mul_cancel₀ _ hb
    have hhb : h * s.b = g * g * s.b - 2 * s.f := by rw [hh]; field_simp
    obtain ⟨w, hw, hne, _, hx⟩ := correction_eq (m := 2) 1 x s hg hh hq (by
      by_contra hn
      push Not at hn
      obtain ⟨hg0, hq0⟩ := hn
      rw [hg0, hq0, zero_mul, sub_zero] at hqq
      rw [hg0, zero_mul, zero_mul, zero_sub] at hhb
      have : h = 0 := by linear_combination -hqq / 2
      rw [this, zero_mul, e3] at hhb
      apply hc; linear_combination hhb / 2)
    have hww : w * w = 2 * h - g * g := by
      rcases hw with hw | hw
      · rw [hw, hqq]
      · rw [hw]; linear_combination hqq
    have key : s.b * (g + w) ^ 2 - s.d * (2 * (g + w)) + s.f * 4 = 0 := by
      rw [← hgb]
      linear_combination s.b * hww + 2 * hhb
    rw [hx, eval_two]
    have e4 : c 0 * (x - ((2 : ℕ) : ℂ) / (g + w)) ^ 0 + c 1 * (x - ((2 : ℕ) : ℂ) / (g + w)) ^ 1 + c 2 * (x - ((2 : ℕ) : ℂ) / (g + w)) ^ 2
        = (s.b * (g + w) ^ 2 - s.d * (2 * (g + w)) + s.f * 4) / (g + w) ^ 2 := by
      rw [e1, e2, e3]; push_cast; field_simp; ring
    rw [e4, key, zero_div])
  refine ⟨i, r, h1, h2, h3.imp id ?_⟩
  intro h
  rw [eval_two] at h
  simpa using h

private theorem real_poly {m : ℕ} {a : ℝ} {r : Fin m → ℝ} {c : ℕ → ℂ}
    (hc : ∀ j, c j = ((C a * ∏ i, (X - C (r i)) : ℝ[X]).coeff j : ℂ)) :
    poly c m = (C a * ∏ i, (X - C (r i)) : ℝ[X]).map Complex.ofRealHom := by
  have hd : (C a * ∏ i, (X - C (r i)) : ℝ[X]).natDegree < m + 1 := by
    refine Nat.lt_succ_of_le ((natDegree_C_mul_le _ _).trans ((natDegree_prod_le _ _).trans ?_))
    simp
  obtain ⟨P, hP⟩ : ∃ P, P = (C a * ∏ i, (X - C (r i)) : ℝ[X]) := ⟨_, rfl⟩
  rw [← hP] at hd ⊢
  rw [as_sum_range_C_mul_X_pow' P hd]
  unfold poly
  rw [Polynomial.map_sum]
  apply sum_congr rfl
  intro j _
  rw [hc, ← hP]; simp

private theorem real_values {m : ℕ} {a : ℝ} (ha : a ≠ 0) {r : Fin m → ℝ} {c : ℕ → ℂ}
    (hc : ∀ j, c j = ((C a * ∏ i, (X - C (r i)) : ℝ[X]).coeff j : ℂ)) {y : ℝ} (hy : ∀ i, y ≠ r i) :
    ((∑ i, 1 / (y - r i) : ℝ) : ℂ) = (evaluate c m (y : ℂ)).d / (evaluate c m (y : ℂ)).b ∧
    ((∑ i, (1 / (y - r i)) ^ 2 : ℝ) : ℂ) = ((∑ i, 1 / (y - r i) : ℝ) : ℂ) * ((∑ i, 1 / (y - r i) : ℝ) : ℂ) -
      2 * (evaluate c m (y : ℂ)).f / (evaluate c m (y : ℂ)).b := by
  obtain ⟨Q0, Q1, Q2⟩ := prod_derivatives univ r y (fun i _ => hy i)
  have hp := real_poly hc
  have hh := evaluate_holds c m (y : ℂ)
  generalize evaluate c m (y : ℂ) = s at hh ⊢
  generalize (∏ i, (X - C (r i)) : ℝ[X]) = Q at Q0 Q1 Q2 hp
  generalize (∑ i, 1 / (y - r i) : ℝ) = S at Q1 Q2 ⊢
  generalize (∑ i, (1 / (y - r i)) ^ 2 : ℝ) = T at Q2 ⊢
  have ev : ∀ p : ℝ[X], (p.map Complex.ofRealHom).eval (y : ℂ) = ((p.eval y : ℝ) : ℂ) := by
    intro p
    rw [eval_map, show ((y : ℝ) : ℂ) = Complex.ofRealHom y from rfl, eval₂_at_apply]; rfl
  have eb := hh.b
  have ed := hh.d
  have ef := hh.f
  rw [part_all, hp] at eb ed ef
  rw [derivative_map] at ed ef
  rw [derivative_map] at ef
  rw [ev] at eb ed ef
  rw [eval_mul, eval_C] at eb
  rw [derivative_C_mul, eval_mul, eval_C, Q1] at ed
  rw [derivative_C_mul, derivative_C_mul, eval_mul, eval_C, Q2] at ef
  have hb0 : (a : ℂ) * ((Q.eval y : ℝ) : ℂ) ≠ 0 := by
    rw [← Complex.ofReal_mul]
    exact Complex.ofReal_ne_zero.mpr (mul_ne_zero ha Q0)
  push_cast at eb ed ef
  constructor
  · rw [eq_div_iff (by rw [eb]; exact hb0), eb, ed]; ring
  · have hbs : s.b ≠ 0 := by rw [eb]; exact hb0
    rw [eq_sub_iff_add_eq, ← eq_sub_iff_add_eq', div_eq_iff hbs, ef, eb]; ring

private theorem real_step {m : ℕ} (hm : 0 < m) {a : ℝ} (ha : a ≠ 0) {r : Fin m → ℝ} {c : ℕ → ℂ}
    (hc : ∀ j, c j = ((C a * ∏ i, (X - C (r i)) : ℝ[X]).coeff j : ℂ)) (iter : ℕ) {y o : ℝ} (ho : o = 1 ∨ o = -1)
    (hy : ∀ i, 0 < o * (y - r i)) :
    ∃ t : ℝ, correction m iter (y : ℂ) (evaluate c m (y : ℂ)) = (t : ℂ) ∧ 0 < o * t ∧ ∀ i, o * t ≤ o * (y - r i) := by
  have hoo : o * o = 1 := by rcases ho with h | h <;> rw [h] <;> norm_num
  have hne : ∀ i, y - r i ≠ 0 := fun i h => by have := hy i; rw [h, mul_zero] at this; exact lt_irrefl _ this
  obtain ⟨hg, hhh⟩ := real_values ha hc (fun i => sub_ne_zero.mp (hne i))
  generalize evaluate c m (y : ℂ) = s at hg hhh ⊢
  obtain ⟨u, hu⟩ : ∃ u : Fin m → ℝ, u = fun i => 1 / (y - r i) := ⟨_, rfl⟩
  obtain ⟨S, hS⟩ : ∃ S, S = ∑ i, u i := ⟨_, rfl⟩
  obtain ⟨T, hT⟩ : ∃ T, T = ∑ i, u i ^ 2 := ⟨_, rfl⟩
  have hS' : (∑ i, 1 / (y - r i)) = S := by rw [hS, hu]
  have hT' : (∑ i, (1 / (y - r i)) ^ 2) = T := by rw [hT, hu]
  rw [hS'] at hg hhh
  rw [hT'] at hhh
  have hbound : ∀ i, (m * u i - S) ^ 2 ≤ ((m : ℝ) - 1) * (m * T - S * S) := by
    intro i
    rw [hS, hT]
    exact step_bound u i
  have i0 : Fin m := ⟨0, hm⟩
  have hD : 0 ≤ ((m : ℝ) - 1) * (m * T - S * S) := (sq_nonneg _).trans (hbound i0)
  obtain ⟨q, hq⟩ : ∃ q, q = Real.sqrt (((m : ℝ) - 1) * (m * T - S * S)) := ⟨_, rfl⟩
  have hq0 : 0 ≤ q := by rw [hq]; exact Real.sqrt_nonneg _
  have hqc : (q : ℂ) = csqrt (((m : ℂ) - 1) * ((m : ℂ) * T - (S : ℂ) * S)) := by
    rw [hq, ← csqrt_real hD]; congr 1; push_cast; ring
  have hup : ∀ i, 0 < o * u i := by
    intro i
    rw [hu]
    have h1 := hy i
    have h2 : o * (1 / (y - r i)) * (o * (y - r i)) = 1 := by
      have := hne i
      field_simp
      linear_combination hoo
    by_contra h3
    have := mul_nonpos_of_nonpos_of_nonneg (not_lt.mp h3) h1.le
    linarith
  have hSp : 0 < o * S := by
    rw [hS, mul_sum]
    exact sum_pos (fun i _ => hup i) ⟨i0, mem_univ _⟩
  have hSne : (S : ℂ) ≠ 0 := by
    intro h
    have : S = 0 := by exact_mod_cast h
    rw [this, mul_zero] at hSp
    exact lt_irrefl _ hSp
  obtain ⟨w, hw, _, hle, hx⟩ := correction_eq (m := m) iter (y : ℂ) s hg hhh hqc (Or.inl hSne)
  have hwq : w = ((o * q : ℝ) : ℂ) := by
    have hcase : w = ((o * q : ℝ) : ℂ) ∨ w = ((-(o * q) : ℝ) : ℂ) := by
      rcases ho with h | h <;> rw [h] <;> rcases hw with h' | h' <;> rw [h'] <;> simp
    rcases hcase with h | h
    · exact h
    · have h5 : |S + o * q| ≤ |S - o * q| := by
        have : ‖((S + o * q : ℝ) : ℂ)‖ ≤ ‖((S - o * q : ℝ) : ℂ)‖ := by
          have e1 : ((S + o * q : ℝ) : ℂ) = (S : ℂ) - w := by rw [h]; push_cast; ring
          have e2 : ((S - o * q : ℝ) : ℂ) = (S : ℂ) + w := by rw [h]; push_cast; ring
          rw [e1, e2]; exact hle
        rwa [Complex.norm_real, Complex.norm_real] at this
      have h6 := sq_le_sq.mpr h5
      have h7 : (o * S) * q ≤ 0 := by nlinarith
      have h8 : q = 0 := by
        by_contra hne
        have : 0 < q := lt_of_le_of_ne hq0 (Ne.symm hne)
        have := mul_pos hSp this
        linarith
      rw [h, h8]; simp
  have hmr : (0 : ℝ) < m := by exact_mod_cast hm
  have htp : 0 < o * S + q := by linarith
  have e9 : o * (S + o * q) = o * S + q := by linear_combination q * hoo
  have htne : S + o * q ≠ 0 := by
    intro h
    rw [h, mul_zero] at e9
    linarith
  have e10 : o * ((m : ℝ) / (S + o * q)) = m / (o * S + q) := by
    rw [← e9]
    have : o ≠ 0 := by rcases ho with h | h <;> rw [h] <;> norm_num
    field_simp
    linear_combination hoo
  refine ⟨(m : ℝ) / (S + o * q), ?_, ?_, ?_⟩
  · rw [hx, hwq]; push_cast; rfl
  · rw [e10]; exact div_pos hmr htp
  · intro i
    rw [e10, div_le_iff₀ htp]
    have h1 : |m * u i - S| ≤ q := by
      rw [hq]; exact Real.abs_le_sqrt (hbound i)
    have h2 : m * (o * u i) ≤ o * S + q := by
      have h3 := abs_le.mp h1
      rcases ho with h | h <;> rw [h] <;> linarith [h3.1, h3.2]
    have h4 : (o * u i) * (o * (y - r i)) = 1 := by
      have := hne i
      rw [hu]
      field_simp
      linear_combination hoo
    have h5 := mul_le_mul_of_nonneg_right h2 (hy i).le
    calc (m : ℝ) = m * ((o * u i) * (o * (y - r i))) := by rw [h4, mul_one]
      _ = m * (o * u i) * (o * (y - r i)) := by ring
      _ ≤ (o * S + q) * (o * (y - r i)) := h5
      _ = o * (y - r i) * (o * S + q) := by ring

private theorem frac_unit (n : ℕ) : 0 ≤ frac n ∧ frac n ≤ 1 := by
  unfold frac; split <;> norm_num

private theorem real_search {m : ℕ} (hm : 0 < m) {a : ℝ} (ha : a ≠ 0) {r : Fin m → ℝ} {c : ℕ → ℂ}
    (hc : ∀ j, c j = ((C a * ∏ i, (X - C (r i)) : ℝ[X]).coeff j : ℂ)) {x o : ℝ} (ho : o = 1 ∨ o = -1)
    (hx : ∀ i, 0 ≤ o * (x - r i)) {n : ℕ} {z : ℂ} (h : solve c m x = some (n, z)) :
    ∃ y : ℝ, z = (y : ℂ) ∧ o * y ≤ o * x ∧ ∀ i, 0 ≤ o * (y - r i) := by
  obtain ⟨_, _, h1, _⟩ := go_inv hm (fun z => ∃ y : ℝ, z = (y : ℂ) ∧ o * y ≤ o * x ∧ ∀ i, 0 ≤ o * (y - r i)) (by
    rintro iter _ y' ⟨y, rfl, hyx, hy⟩ hp
    rcases pass_cases c iter (y : ℂ) hm with ⟨h1, _⟩ | ⟨h1, h2⟩
    · rw [h1] at hp; cases hp
    · rw [h2] at hp
      cases hp
      have hb := b_ne h1
      have hpos : ∀ i, 0 < o * (y - r i) := by
        intro i
        refine lt_of_le_of_ne (hy i) ?_
        intro h0
        have ho0 : o ≠ 0 := by rcases ho with h | h <;> rw [h] <;> norm_num
        have h3 : y - r i = 0 := (mul_eq_zero.mp h0.symm).resolve_left ho0
        apply hb
        rw [(evaluate_holds c m (y : ℂ)).b, part_all, real_poly hc, eval_map,
          show ((y : ℝ) : ℂ) = Complex.ofRealHom y from rfl, eval₂_at_apply]
        rw [eval_mul, eval_prod, prod_eq_zero (mem_univ i), mul_zero, map_zero]
        rw [eval_sub, eval_X, eval_C, h3]
      obtain ⟨t, ht, ht0, hti⟩ := real_step hm ha hc iter ho hpos
      obtain ⟨k, hk, hk0, hk1⟩ : ∃ k : ℝ, (if iter % 10 ≠ 0 then 1 else (frac (iter / 10) : ℂ)) = (k : ℂ) ∧ 0 ≤ k ∧ k ≤ 1 := by
        by_cases h4 : iter % 10 ≠ 0
        · exact ⟨1, by rw [if_pos h4]; simp, by norm_num, le_refl _⟩
        · exact ⟨frac (iter / 10), by rw [if_neg h4], (frac_unit _).1, (frac_unit _).2⟩
      refine ⟨y - k * t, by rw [ht, hk]; push_cast; ring, ?_, ?_⟩
      · have := mul_nonneg hk0 ht0.le
        nlinarith
      · intro i
        have h5 := hti i
        have h6 := mul_le_mul_of_nonneg_right hk1 ht0.le
        nlinarith) 80 1 x n z ⟨x, rfl, le_refl _, hx⟩ h
  exact h1

/-- If the polynomial has real roots only and the estimate is real and not less than any of them, the root returned is real, not
greater than the estimate and not less than the greatest root: no step, whole or fractional, passes it. -/
theorem c72_from_above {m : ℕ} (hm : 0 < m) {a : ℝ} (ha : a ≠ 0) {r : Fin m → ℝ} {c : ℕ → ℂ}
    (hc : ∀ j, c j = ((C a * ∏ i, (X - C (r i)) : ℝ[X]).coeff j : ℂ)) {x : ℝ} (hx : ∀ i, r i ≤ x) {n : ℕ} {z : ℂ}
    (h : solve c m x = some (n, z)) : ∃ y : ℝ, z = (y : ℂ) ∧ y ≤ x ∧ ∀ i, r i ≤ y := by
  obtain ⟨y, h1, h2, h3⟩ := real_search hm ha hc (Or.inl rfl) (fun i => by linarith [hx i]) h
  exact ⟨y, h1, by linarith, fun i => by linarith [h3 i]⟩

/-- And an estimate not greater than any root gives a real root between the estimate and the least root. -/
theorem c72_from_below {m : ℕ} (hm : 0 < m) {a : ℝ} (ha : a ≠ 0) {r : Fin m → ℝ} {c : ℕ → ℂ}
    (hc : ∀ j, c j = ((C a * ∏ i, (X - C (r i)) : ℝ[X]).coeff j : ℂ)) {x : ℝ} (hx : ∀ i, x ≤ r i) {n : ℕ} {z : ℂ}
    (h : solve c m x = some (n, z)) : ∃ y : ℝ, z = (y : ℂ) ∧ x ≤ y ∧ ∀ i, y ≤ r i := by
  obtain ⟨y, h1, h2, h3⟩ := real_search hm ha hc (Or.inr rfl) (fun i => by linarith [hx i]) h
  exact ⟨y, h1, by linarith, fun i => by linarith [h3 i]⟩

/-- A polynomial with a single root of any order is solved exactly by one step, from any estimate. -/
theorem c72_repeated {m : ℕ} (hm : 0 < m) {c : ℕ → ℂ} {a r : ℂ}
    (hc : (∑ j ∈ range (m + 1), C (c j) * X ^ j : ℂ[X]) = C a * (X - C r) ^ m) (x : ℂ) :
    ∃ i z, solve c m x = some (i, z) ∧ i ≤ 2 ∧ (z = x ∨ z = r) := by
  have hc' : poly c m = C a * (X - C r) ^ m := hc
  have hev : ∀ z, (poly c m).eval z = a * (z - r) ^ m := by intro z; rw [hc']; simp
  by_cases ha : a = 0
  · refine ⟨1, x, c72_kept hm ?_, by omega, Or.inl rfl⟩
    rw [← eval_poly, hev, ha, zero_mul]
  obtain ⟨i, z, h1, h2, h3⟩ := solve_two (c := c) hm x (by
    intro hb
    have hb := b_ne hb
    have hh := evaluate_holds c m x
    have hxr : x - r ≠ 0 := by
      intro h0
      apply hb
      rw [hh.b, part_all, hev, h0, zero_pow hm.ne', mul_zero]
    obtain ⟨Q0, Q1, Q2⟩ := prod_derivatives (univ : Finset (Fin m)) (fun _ => r) x (fun _ _ => sub_ne_zero.mp hxr)
    have eb := hh.b
    have ed := hh.d
    have ef := hh.f
    rw [part_all, hc'] at eb ed ef
    rw [prod_const, card_univ, Fintype.card_fin] at Q0 Q1 Q2
    rw [derivative_C_mul, eval_mul, eval_C, Q1, sum_const, card_univ, Fintype.card_fin, nsmul_eq_mul] at ed
    rw [derivative_C_mul, derivative_C_mul, eval_mul, eval_C, Q2, sum_const, sum_const, card_univ, Fintype.card_fin, nsmul_eq_mul,
      nsmul_eq_mul] at ef
    rw [eval_mul, eval_C] at eb
    generalize evaluate c m x = s at *
    generalize eval x ((X - C r) ^ m) = Q at *
    have hm0 : (m : ℂ) ≠ 0 := by exact_mod_cast hm.ne'
    have hg : (m : ℂ) * (1 / (x - r)) = s.d / s.b := by
      rw [eq_div_iff hb, ed, eb]; ring
    have hhh : (m : ℂ) * (1 / (x - r)) ^ 2 = (m : ℂ) * (1 / (x - r)) * ((m : ℂ) * (1 / (x - r))) - 2 * s.f / s.b := by
      rw [eq_sub_iff_add_eq, ← eq_sub_iff_add_eq', div_eq_iff hb, ef, eb]; ring
    have hq : (0 : ℂ) = csqrt (((m : ℂ) - 1) * ((m : ℂ) * ((m : ℂ) * (1 / (x - r)) ^ 2) -
        (m : ℂ) * (1 / (x - r)) * ((m : ℂ) * (1 / (x - r))))) := by
      have e : ((m : ℂ) - 1) * ((m : ℂ) * ((m : ℂ) * (1 / (x - r)) ^ 2) - (m : ℂ) * (1 / (x - r)) * ((m : ℂ) * (1 / (x - r)))) = 0 := by
        ring
      rw [e]
      exact (mul_self_eq_zero.mp (csqrt_sq 0)).symm
    obtain ⟨w, hw, _, _, hx⟩ := correction_eq (m := m) 1 x s hg hhh hq (Or.inl (mul_ne_zero hm0 (one_div_ne_zero hxr)))
    have hw0 : w = 0 := by
      rcases hw with h | h
      · exact h
      · rw [h, neg_zero]
    rw [hev, hx, hw0, add_zero]
    have e : x - (m : ℂ) / ((m : ℂ) * (1 / (x - r))) - r = 0 := by field_simp; ring
    rw [e, zero_pow hm.ne', mul_zero])
  refine ⟨i, z, h1, h2, h3.imp id ?_⟩
  intro h
  rw [hev] at h
  exact sub_eq_zero.mp (pow_eq_zero_iff hm.ne' |>.mp ((mul_eq_zero.mp h).resolve_left ha))

/-- A constant other than zero has no root, and the search ends with the exception, whatever the order stated and the estimate. -/
theorem c72_constant {c : ℕ → ℂ} {m : ℕ} (hm : 0 < m) (h0 : c 0 ≠ 0) (hz : ∀ j, 0 < j → c j = 0) (x : ℂ) : solve c m x = none := by
  cases h : solve c m x with
  | none => rfl
  | some p =>
    exfalso
    obtain ⟨i, r⟩ := p
    obtain ⟨_, _, h3⟩ := c72_returned hm h
    rw [sum_eq_single 0 (fun j _ hj => by rw [hz j (Nat.pos_of_ne_zero hj), zero_mul]) (fun hn => absurd (mem_range.mpr (by omega)) hn),
      sum_eq_single 0 (fun j _ hj => by rw [hz j (Nat.pos_of_ne_zero hj), norm_zero]; ring)
        (fun hn => absurd (mem_range.mpr (by omega)) hn)] at h3
    simp only [pow_zero, mul_one, Nat.cast_zero, zero_add, one_mul] at h3
    have h4 := norm_pos_iff.mpr h0
    have h5 := dblEps_lt_one (K := ℝ)
    nlinarith

/-- The test on the value does not place a multiple root any better than the square root of the rounding: 1 + 2⁻²⁶ i is returned as
a root of (x - 1)², with an imaginary part that the fan's test (`|imag| < DBL_EPSILON`) then takes for a complex root. -/
theorem c72_ill_placed :
    ∃ c : ℕ → ℂ, (∀ z : ℂ, (∑ j ∈ range 3, c j * z ^ j = 0 ↔ z = 1)) ∧ ∃ r, solve c 2 r = some (1, r) ∧ r.re = 1 ∧ dblEps < r.im := by
  refine ⟨fun j => if j = 0 then 1 else if j = 1 then -2 else 1, ?_, ⟨1, 1 / 2 ^ 26⟩, ?_, rfl, ?_⟩
  · intro z
    have e : (∑ j ∈ range 3, (if j = 0 then 1 else if j = 1 then -2 else 1 : ℂ) * z ^ j) = (z - 1) ^ 2 := by
      simp [sum_range_succ]; ring
    rw [e, pow_eq_zero_iff (by norm_num), sub_eq_zero]
  · obtain ⟨c, hc⟩ : ∃ c : ℕ → ℂ, c = fun j => if j = 0 then 1 else if j = 1 then -2 else 1 := ⟨_, rfl⟩
    obtain ⟨r, hr⟩ : ∃ r : ℂ, r = ⟨1, 1 / 2 ^ 26⟩ := ⟨_, rfl⟩
    rw [← hc, ← hr]
    have hh := evaluate_holds c 2 r
    have hb : (evaluate c 2 r).b = (r - 1) ^ 2 := by
      rw [show (evaluate c 2 r).b = r * (r * c 2 + c 1) + c 0 from rfl, hc]; norm_num; ring
    have hre : (1 : ℝ) ≤ ‖r‖ := by
      have := Complex.abs_re_le_norm r
      rw [hr] at this ⊢
      simpa using this
    have he : 1 ≤ (evaluate c 2 r).err := by
      rw [show (evaluate c 2 r).err = ‖r * (r * c 2 + c 1) + c 0‖ + ‖r‖ * (‖r * c 2 + c 1‖ + ‖r‖ * ‖c 2‖) from rfl]
      have h2 : ‖c 2‖ = 1 := by rw [hc]; norm_num
      rw [h2]
      have a1 := norm_nonneg (r * (r * c 2 + c 1) + c 0)
      have a2 := norm_nonneg (r * c 2 + c 1)
      nlinarith
    have hn : ‖(r - 1) ^ 2‖ = 1 / 2 ^ 52 := by
      have e : r - 1 = ((1 / 2 ^ 26 : ℝ) : ℂ) * Complex.I := by
        rw [hr]
        generalize (1 / 2 ^ 26 : ℝ) = t
        apply Complex.ext <;> simp
      rw [e, norm_pow, norm_mul, Complex.norm_I, Complex.norm_real, Real.norm_of_nonneg (by norm_num)]; norm_num
    rcases pass_cases c 1 r two_pos with ⟨h1, _⟩ | ⟨h2, _⟩
    · simp only [solve, go, h1]
    · exfalso
      rw [hb, hn] at h2
      have h3 := mul_le_mul_of_nonneg_right he (dblEps_pos (K := ℝ)).le
      unfold dblEps at h2 h3
      linarith
  · unfold dblEps; norm_num

/-- The coefficients of (x - 1)(x - 3): from 0 the search returns, and what it returns is real and in [0, 1]. -/
example : ∃ n z, solve (fun j => if j = 0 then 3 else if j = 1 then -4 else if j = 2 then 1 else 0) 2 ((0 : ℝ) : ℂ) = some (n, z) ∧
    ∃ y : ℝ, z = (y : ℂ) ∧ 0 ≤ y ∧ y ≤ 1 := by
  obtain ⟨n, z, h, _, _⟩ := c72_quadratic (c := fun j => if j = 0 then 3 else if j = 1 then -4 else if j = 2 then 1 else 0)
    (by norm_num) ((0 : ℝ) : ℂ)
  refine ⟨n, z, h, ?_⟩
  obtain ⟨y, h1, h2, h3⟩ := c72_from_below (m := 2) two_pos (a := 1) one_ne_zero (r := ![1, 3])
    (by
      intro j
      have e : (C 1 * ∏ i : Fin 2, (X - C ((![1, 3] : Fin 2 → ℝ) i)) : ℝ[X]) = C 3 + C (-4) * X + X ^ 2 := by
        rw [Fin.prod_univ_two]
        simp only [Matrix.cons_val_zero, Matrix.cons_val_one, map_one, map_neg]
        rw [show (C 4 : ℝ[X]) = C 1 + C 3 by rw [← C_add]; norm_num]
        simp only [map_one]
        ring
      rw [e]
      rcases j with _ | _ | _ | j
      · simp
      · simp [coeff_C]
      · simp
      · simp [coeff_X_pow])
    (by intro i; fin_cases i <;> simp) h
  exact ⟨y, h1, h2, by simpa using h3 0⟩

end Gunns.Props
