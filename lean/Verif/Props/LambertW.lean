import Verif.Math.LambertWLemmas

/-!
# C75: Lambert's W function

The reference is the equation `w * exp w = x` itself.  Everything is for exact arithmetic.
-/

namespace Gunns.Props

open Real Gunns.Lambert

/-- What a result `r` for the input `x` and the convergence tolerance `c` satisfies: `x` is `r * exp r` up to a factor `exp ε`, and
`ε` is at most `bound`, unless the last two estimates differ by at most `c`, when `ε` is at most the square of their relative
difference. -/
def LambertNear (x c bound r : ℝ) : Prop :=
  ∃ ε, 0 ≤ ε ∧ x = r * exp (r + ε) ∧ (ε ≤ bound ∨ ∃ p, |r - p| ≤ c ∧ ε ≤ ((r - p) / p) ^ 2)

private theorem near_of_res {x c bound r : ℝ} (h : 0 < x / r) (h0 : 0 ≤ res x r)
    (h1 : res x r ≤ bound ∨ ∃ p, |r - p| ≤ c ∧ res x r ≤ ((r - p) / p) ^ 2) : LambertNear x c bound r :=
  ⟨res x r, h0, res_spec h, h1⟩

private theorem boundary_gt : -(1 / exp 1) < minBoundary := by unfold minBoundary; norm_num

private theorem near_zero_gt : minBoundary < -dblEps := by
  have h : 1 / 3 ≤ 1 / exp 1 := by apply one_div_le_one_div_of_le (exp_pos 1); linarith [exp_one_lt_d9]
  unfold minBoundary dblEps
  norm_num at h ⊢
  linarith

/-- The principal branch on positive inputs: the result is positive, does not exceed W, and the residual after ten passes is at
most 2^-1023. -/
theorem c75_principal_positive (x c : ℝ) (h0 : dblEps < x) (h1 : x ≤ 10 ^ 300) :
    ∃ r, solveW0 x c = .val r ∧ 0 < r ∧ r * exp r ≤ x ∧ LambertNear x c (2 * (1 / 2) ^ 1024) r := by
  have he : (0 : ℝ) < dblEps := dblEps_pos
  have hx : 0 < x := by linarith
  obtain ⟨r, e, hr, hr0, hr1⟩ := solve_pos (c := c) hx
  have hn := near_of_res (div_pos hx hr) hr0 hr1
  refine ⟨r, ?_, hr, ?_, hn⟩
  · unfold solveW0
    have hb : minBoundary < x := by linarith [near_zero_gt]
    rw [if_neg (show ¬ x > maxInput0 from not_lt.2 h1), if_neg (by linarith [boundary_gt]), if_neg (by linarith), if_neg (by intro h; linarith [h.2]), e]
  · obtain ⟨ε, h, hxe, _⟩ := hn
    rw [hxe]
    have : exp r ≤ exp (r + ε) := exp_le_exp.2 (by linarith)
    nlinarith

/-- With the default tolerance of zero the result is W itself up to 2^-1023. -/
theorem c75_principal_exact (x W : ℝ) (h0 : dblEps < x) (h1 : x ≤ 10 ^ 300) (hW : W * exp W = x) :
    ∃ r, solveW0 x 0 = .val r ∧ r ≤ W ∧ W ≤ r + 2 * (1 / 2) ^ 1024 := by
  have he : (0 : ℝ) < dblEps := dblEps_pos
  obtain ⟨r, e, hr, hle, ε, hε, hxe, hor⟩ := c75_principal_positive x 0 h0 h1
  have hW0 : 0 < W := by
    by_contra hc; push Not at hc
    nlinarith [exp_pos W]
  have hε1 : ε ≤ 2 * (1 / 2) ^ 1024 := by
    rcases hor with h | ⟨p, hp, hp2⟩
    · exact h
    · have : r - p = 0 := abs_eq_zero.1 (le_antisymm hp (abs_nonneg _))
      rw [this, zero_div] at hp2
      refine hp2.trans ?_
      rw [zero_pow two_ne_zero]
      positivity
  refine ⟨r, e, ?_, ?_⟩
  · by_contra hc; push Not at hc
    have : exp W < exp r := exp_lt_exp.2 hc
    nlinarith [exp_pos W, exp_pos r]
  · have h2 : W ≤ r + ε := by
      by_contra hc; push Not at hc
      have : exp (r + ε) < exp W := exp_lt_exp.2 hc
      nlinarith [exp_pos W, exp_pos (r + ε)]
    exact h2.trans (add_le_add_right hε1 r)

/-- The principal branch on negative inputs: the result lies between -1 and 0 and is not below W; the passes converge over the
whole range. -/
theorem c75_principal_negative (x c : ℝ) (h0 : -(1 / exp 1) + 1 / 10 ^ 12 ≤ x) (h1 : x < -dblEps) :
    ∃ r, solveW0 x c = .val r ∧ (-1 < r ∧ r < 0) ∧ x ≤ r * exp r ∧ LambertNear x c (2 * (1 / 10) ^ 1024) r := by
  have he : (0 : ℝ) < dblEps := dblEps_pos
  have hx : x < 0 := by linarith
  have hb : minBoundary ≤ x := h0
  have hxe : -(1 / exp 1) < x := lt_of_lt_of_le boundary_gt hb
  obtain ⟨r, e, hr, hr0, hr1⟩ := solve_neg0 (c := c) hx hxe
  have hn := near_of_res (div_pos_of_neg_of_neg hx hr.2) hr0 hr1
  refine ⟨r, ?_, hr, ?_, hn⟩
  · unfold solveW0
    have hm : (0 : ℝ) < maxInput0 := by unfold maxInput0; positivity
    rw [if_neg (by linarith), if_neg (by linarith), if_neg (by linarith), if_neg (by intro h; linarith [h.1]), e]
  · obtain ⟨ε, h, hxe, _⟩ := hn
    rw [hxe]
    have : exp r ≤ exp (r + ε) := exp_le_exp.2 (by linarith)
    nlinarith [hr.2]

/-- The other branch: the result is below -1 and does not exceed W. -/
theorem c75_other_branch (x c : ℝ) (h0 : -(1 / exp 1) + 1 / 10 ^ 12 ≤ x) (h1 : x ≤ -(1 / 10 ^ 300)) :
    ∃ r ε, solveW1 x c = .val r ∧ r < -1 ∧ 0 ≤ ε ∧ x = r * exp (r + ε) ∧
      ∀ W, W ≤ -1 → W * exp W = x → r ≤ W := by
  have hx : x < 0 := lt_of_le_of_lt h1 (by rw [neg_lt_zero]; positivity)
  have hb : minBoundary ≤ x := h0
  have hxe : -(1 / exp 1) < x := lt_of_lt_of_le boundary_gt hb
  obtain ⟨r, e, hr, hr0⟩ := solve_neg1 (c := c) hx hxe
  have hd : 0 < x / r := div_pos_of_neg_of_neg hx (by linarith)
  refine ⟨r, res x r, ?_, hr, hr0, res_spec hd, ?_⟩
  · unfold solveW1
    rw [if_neg (show ¬ x > maxInput1 from not_lt.2 h1), if_neg (by linarith), if_neg (by linarith), e]
  · intro W hW hWx
    by_contra hc; push Not at hc
    -- w e^w decreases up to -1, so W < r gives W e^W > r e^r ≥ x
    have h2 : r * exp r < W * exp W := by
      have hl := one_sub_inv_le_log_of_pos (x := W / r) (div_pos_of_neg_of_neg (by linarith) (by linarith))
      have h3 : log (W / r) < r - W := by
        have := log_lt_sub_one_of_pos (x := W / r) (div_pos_of_neg_of_neg (by linarith) (by linarith)) (by
          intro h; rw [div_eq_one_iff_eq (by linarith)] at h; linarith)
        refine this.trans_le ?_
        have e4 : W / r - 1 = (r - W) / -r := by
          have : r ≠ 0 := by linarith
          field_simp; ring
        rw [e4]
        exact div_le_self (by linarith) (by linarith)
      rw [log_lt_iff_lt_exp (div_pos_of_neg_of_neg (by linarith) (by linarith)), ← neg_div_neg_eq, div_lt_iff₀ (by linarith)] at h3
      have e5 : exp r = exp (r - W) * exp W := by rw [← exp_add]; congr 1; ring
      rw [e5]
      nlinarith [exp_pos W]
    have h6 := res_spec hd
    have h7 : exp r ≤ exp (r + res x r) := exp_le_exp.2 (by linarith)
    nlinarith

/-- Near zero the other branch converges too. -/
theorem c75_other_near_zero (x c : ℝ) (h0 : -(8 / 1000) < x) (h1 : x ≤ -(1 / 10 ^ 300)) :
    ∃ r, solveW1 x c = .val r ∧ r ≤ -4 ∧ LambertNear x c ((1 / 200) ^ 512) r := by
  have hx : x < 0 := lt_of_le_of_lt h1 (by rw [neg_lt_zero]; positivity)
  obtain ⟨r, e, hr, hr0, hr1⟩ := solve_near1 (c := c) hx h0
  refine ⟨r, ?_, hr, near_of_res (div_pos_of_neg_of_neg hx (by linarith)) hr0 hr1⟩
  have hb : minBoundary < x := by
    have h : 1 / 3 ≤ 1 / exp 1 := by apply one_div_le_one_div_of_le (exp_pos 1); linarith [exp_one_lt_d9]
    unfold minBoundary; norm_num at h ⊢; linarith
  unfold solveW1
  rw [if_neg (show ¬ x > maxInput1 from not_lt.2 h1), if_neg (by linarith [boundary_gt]), if_neg (by linarith), e]

/-- When the solvers throw; they never compute something that is not a number. -/
theorem c75_throws (x c : ℝ) :
    (solveW0 x c = .thrown ↔ x < -(1 / exp 1) ∨ 10 ^ 300 < x) ∧ (solveW1 x c = .thrown ↔ x < -(1 / exp 1) ∨ -(1 / 10 ^ 300) < x) ∧
      solveW0 x c ≠ .nan ∧ solveW1 x c ≠ .nan := by
  have he : (0 : ℝ) < dblEps := dblEps_pos
  have hm : (0 : ℝ) < 10 ^ 300 := by positivity
  have hm1 : (0 : ℝ) < 1 / 10 ^ 300 := by positivity
  have hb := boundary_gt
  have hz := near_zero_gt
  have w0 : (x < -(1 / exp 1) ∨ 10 ^ 300 < x) ∧ solveW0 x c = .thrown ∨
      ¬(x < -(1 / exp 1) ∨ 10 ^ 300 < x) ∧ ∃ r, solveW0 x c = .val r := by
    by_cases h1 : 10 ^ 300 < x
    · exact Or.inl ⟨Or.inr h1, by unfold solveW0; rw [if_pos (show x > maxInput0 from h1)]⟩
    by_cases h2 : x < -(1 / exp 1)
    · exact Or.inl ⟨Or.inl h2, by unfold solveW0; rw [if_neg (show ¬ x > maxInput0 from h1), if_pos h2]⟩
    refine Or.inr ⟨by push Not; exact ⟨not_lt.1 h2, not_lt.1 h1⟩, ?_⟩
    by_cases h3 : x < minBoundary
    · exact ⟨_, by unfold solveW0; rw [if_neg (show ¬ x > maxInput0 from h1), if_neg h2, if_pos h3]⟩
    by_cases h4 : -dblEps ≤ x ∧ x ≤ dblEps
    · exact ⟨_, by unfold solveW0; rw [if_neg (show ¬ x > maxInput0 from h1), if_neg h2, if_neg h3, if_pos h4]⟩
    by_cases h5 : dblEps < x
    · obtain ⟨r, e, _⟩ := c75_principal_positive x c h5 (not_lt.1 h1); exact ⟨r, e⟩
    · have h6 : x < -dblEps := by
        by_contra hc; exact h4 ⟨not_lt.1 hc, not_lt.1 h5⟩
      obtain ⟨r, e, _⟩ := c75_principal_negative x c (not_lt.1 h3) h6; exact ⟨r, e⟩
  have w1 : (x < -(1 / exp 1) ∨ -(1 / 10 ^ 300) < x) ∧ solveW1 x c = .thrown ∨
      ¬(x < -(1 / exp 1) ∨ -(1 / 10 ^ 300) < x) ∧ ∃ r, solveW1 x c = .val r := by
    by_cases h1 : -(1 / 10 ^ 300) < x
    · exact Or.inl ⟨Or.inr h1, by unfold solveW1; rw [if_pos (show x > maxInput1 from h1)]⟩
    by_cases h2 : x < -(1 / exp 1)
    · exact Or.inl ⟨Or.inl h2, by unfold solveW1; rw [if_neg (show ¬ x > maxInput1 from h1), if_pos h2]⟩
    refine Or.inr ⟨by push Not; exact ⟨not_lt.1 h2, not_lt.1 h1⟩, ?_⟩
    by_cases h3 : x < minBoundary
    · exact ⟨_, by unfold solveW1; rw [if_neg (show ¬ x > maxInput1 from h1), if_neg h2, if_pos h3]⟩
    · obtain ⟨r, _, e, _⟩ := c75_other_branch x c (not_lt.1 h3) (not_lt.1 h1); exact ⟨r, e⟩
  refine ⟨?_, ?_, ?_, ?_⟩
  · rcases w0 with ⟨h, e⟩ | ⟨h, r, e⟩
    · exact ⟨fun _ => h, fun _ => e⟩
    · exact ⟨fun h' => (by rw [e] at h'; exact Out.noConfusion h'), fun h' => absurd h' h⟩
  · rcases w1 with ⟨h, e⟩ | ⟨h, r, e⟩
    · exact ⟨fun _ => h, fun _ => e⟩
    · exact ⟨fun h' => (by rw [e] at h'; exact Out.noConfusion h'), fun h' => absurd h' h⟩
  · rcases w0 with ⟨h, e⟩ | ⟨h, r, e⟩ <;> rw [e] <;> intro h' <;> cases h'
  · rcases w1 with ⟨h, e⟩ | ⟨h, r, e⟩ <;> rw [e] <;> intro h' <;> cases h'

/-- The two special ranges: near -1/e both branches return -1, and -1 solves the equation for an input within 10^-12; near zero
the principal branch returns the input, which solves the equation up to twice its square. -/
theorem c75_special (x c : ℝ) :
    (-(1 / exp 1) ≤ x → x < -(1 / exp 1) + 1 / 10 ^ 12 → solveW0 x c = .val (-1) ∧ solveW1 x c = .val (-1) ∧
      |-1 * exp (-1) - x| ≤ 1 / 10 ^ 12) ∧
    (|x| ≤ dblEps → solveW0 x c = .val x ∧ |x * exp x - x| ≤ 2 * x ^ 2) := by
  have he : (0 : ℝ) < dblEps := dblEps_pos
  have hm : (0 : ℝ) < 10 ^ 300 := by positivity
  have hb := boundary_gt
  have hz := near_zero_gt
  constructor
  · intro h1 h2
    have h3 : x < minBoundary := h2
    have h4 : x < -(1 / 10 ^ 300) := by
      have h5 : (1 / 10 ^ 300 : ℝ) ≤ 1 / 2 ^ 52 := by
        apply one_div_le_one_div_of_le (by positivity)
        calc (2 : ℝ) ^ 52 ≤ 10 ^ 52 := by gcongr; norm_num
          _ ≤ 10 ^ 300 := pow_le_pow_right₀ (by norm_num) (by norm_num)
      have h6 : -dblEps ≤ -(1 / 10 ^ 300 : ℝ) := neg_le_neg h5
      exact (h3.trans hz).trans_le h6
    refine ⟨?_, ?_, ?_⟩
    · unfold solveW0
      have hm' : 0 < maxInput0 := hm
      rw [if_neg (by linarith), if_neg (by linarith), if_pos h3]
    · unfold solveW1
      rw [if_neg (show ¬ x > maxInput1 from not_lt.2 h4.le), if_neg (by linarith), if_pos h3]
    · rw [exp_neg, abs_le, inv_eq_one_div]
      constructor <;> linarith
  · intro h1
    obtain ⟨h2, h3⟩ := abs_le.1 h1
    have he1 : (dblEps : ℝ) < 1 := dblEps_lt_one
    refine ⟨?_, ?_⟩
    · unfold solveW0
      have : (1 : ℝ) ≤ maxInput0 := one_le_pow₀ (by norm_num)
      rw [if_neg (by linarith), if_neg (by linarith), if_neg (by linarith), if_pos ⟨h2, h3⟩]
    · have e : x * exp x - x = x * (exp x - 1) := by ring
      rw [e, abs_mul]
      have h4 : |exp x - 1| ≤ 2 * |x| := abs_exp_sub_one_le (by linarith)
      calc |x| * |exp x - 1| ≤ |x| * (2 * |x|) := mul_le_mul_of_nonneg_left h4 (abs_nonneg x)
        _ = 2 * x ^ 2 := by rw [← sq_abs x]; ring

/-- The accuracy of the fast function near zero, below a tenth, and for large inputs, relative to any W on the principal branch. -/
theorem c75_fast_accuracy (x W : ℝ) (hW : -1 ≤ W) (h : W * exp W = x) :
    (-(1 / 100) < x → x < 1 / 100 → ∃ r, fastW0 x = .val r ∧ |r - W| ≤ 0.0102 * |W|) ∧
    (1 / 100 ≤ x → x < 1 / 10 → ∃ r, fastW0 x = .val r ∧ |r - W| ≤ 0.02 * |W|) ∧
    (10 ^ 10 < x → x ≤ 10 ^ 300 → ∃ r, fastW0 x = .val r ∧ |r - W| ≤ 0.03 * |W|) := by
  have hb : -(1 / exp 1) < -(1 / 100 : ℝ) := by
    have h : 1 / 3 ≤ 1 / exp 1 := by apply one_div_le_one_div_of_le (exp_pos 1); linarith [exp_one_lt_d9]
    linarith
  have h1 : (1 : ℝ) ≤ maxInput0 := one_le_pow₀ (by norm_num)
  have hWp : 0 < x → 0 < W := by
    intro hx
    by_contra hc; push Not at hc
    nlinarith [exp_pos W]
  refine ⟨fun h2 h3 => ⟨x, ?_, fast_small h2 h3 hW h⟩, fun h2 h3 => ?_, fun h2 h3 => ?_⟩
  · unfold fastW0
    rw [if_neg (by linarith), if_neg (by linarith), if_neg (by linarith), if_pos h3]
  · refine ⟨x - exp ((4.123e-6 * log x + 2) * log x + 1.64e-4), ?_, ?_⟩
    · unfold fastW0
      rw [if_neg (by linarith), if_neg (by linarith), if_neg (by linarith), if_neg (by linarith)]
      simp only
      rw [if_pos h3]
    · rw [abs_of_pos (hWp (by linarith))]; exact fast_tenth h2 h3 hW h
  · have hx : (10 : ℝ) ^ 10 = 10000000000 := by norm_num
    refine ⟨0.996 * log x - 3.47, ?_, ?_⟩
    · unfold fastW0
      rw [if_neg (show ¬ x > maxInput0 from not_lt.2 h3), if_neg (by linarith), if_neg (by linarith), if_neg (by linarith)]
      simp only
      rw [if_neg (by linarith), if_neg (by linarith), if_neg (by linarith)]
    · rw [abs_of_pos (hWp (by linarith))]; exact fast_large h2.le h

/-- The fast functions throw on the same inputs, and outside their fitted ranges they are the solvers. -/
theorem c75_fast_fallback (x : ℝ) :
    (fastW0 x = .thrown ↔ x < -(1 / exp 1) ∨ 10 ^ 300 < x) ∧ (fastW1 x = .thrown ↔ x < -(1 / exp 1) ∨ -(1 / 10 ^ 300) < x) ∧
      (x ≤ -(1 / 100) → fastW0 x = solveW0 x 0) ∧
      (x < -0.364 ∨ -(1 / 10 ^ 20) < x → fastW1 x = solveW1 x 0) := by
  obtain ⟨t0, t1, _, _⟩ := c75_throws x 0
  have hm : (0 : ℝ) < maxInput0 := by unfold maxInput0; positivity
  have f0 : x ≤ -(1 / 100) → fastW0 x = solveW0 x 0 := by
    intro h
    by_cases h2 : x < -(1 / exp 1)
    · rw [t0.2 (Or.inl h2)]; unfold fastW0; rw [if_neg (by linarith), if_pos h2]
    · unfold fastW0; rw [if_neg (by linarith), if_neg h2, if_pos h]
  have f1 : x < -0.364 ∨ -(1 / 10 ^ 20) < x → fastW1 x = solveW1 x 0 := by
    intro h
    by_cases h1 : x > maxInput1
    · rw [t1.2 (Or.inr h1)]; unfold fastW1; rw [if_pos h1]
    by_cases h2 : x < -(1 / exp 1)
    · rw [t1.2 (Or.inl h2)]; unfold fastW1; rw [if_neg h1, if_pos h2]
    by_cases h3 : -(1 / 10 ^ 20) < x
    · unfold fastW1; rw [if_neg h1, if_neg h2, if_pos h3]
    · have h4 : x < -0.364 := h.resolve_right h3
      unfold fastW1
      rw [if_neg h1, if_neg h2, if_neg h3, if_neg (by norm_num at h4 ⊢; linarith), if_neg (by norm_num at h4 ⊢; linarith),
        if_neg (by norm_num at h4 ⊢; linarith)]
  refine ⟨?_, ?_, f0, f1⟩
  · by_cases h : x ≤ -(1 / 100)
    · rw [f0 h]; exact t0
    · by_cases h1 : x > maxInput0
      · exact ⟨fun _ => Or.inr h1, fun _ => by unfold fastW0; rw [if_pos h1]⟩
      by_cases h2 : x < -(1 / exp 1)
      · exact ⟨fun _ => Or.inl h2, fun _ => by unfold fastW0; rw [if_neg h1, if_pos h2]⟩
      constructor
      · intro h3
        unfold fastW0 at h3
        rw [if_neg h1, if_neg h2, if_neg h] at h3
        simp only at h3
        split_ifs at h3
      · rintro (h3 | h3)
        · exact absurd h3 h2
        · exact absurd h3 h1
  · by_cases h : x < -0.364 ∨ -(1 / 10 ^ 20) < x
    · rw [f1 h]; exact t1
    · push Not at h
      by_cases h1 : x > maxInput1
      · exact ⟨fun _ => Or.inr h1, fun _ => by unfold fastW1; rw [if_pos h1]⟩
      by_cases h2 : x < -(1 / exp 1)
      · exact ⟨fun _ => Or.inl h2, fun _ => by unfold fastW1; rw [if_neg h1, if_pos h2]⟩
      constructor
      · intro h3
        unfold fastW1 at h3
        rw [if_neg h1, if_neg h2, if_neg (not_lt.2 h.2)] at h3
        simp only at h3
        rw [if_pos (show x ≥ -0.364 from h.1)] at h3
        split_ifs at h3
      · rintro (h3 | h3)
        · exact absurd h3 h2
        · exact absurd h3 h1

/-- The comment at LambertW.cpp:214 gives an accuracy of 0.5 percent between a tenth and a hundred.  At the input whose W is 2.5 the
error exceeds it. -/
theorem c75_fast_accuracy_claim_fails :
    ∃ x W r : ℝ, W * exp W = x ∧ 1 / 10 ≤ x ∧ x < 100 ∧ fastW0 x = .val r ∧ 0.005 * |W| < |r - W| := by
  have he := exp_one_gt_d9
  have heu := exp_one_lt_d9
  have hexp : exp (5 / 2) < 27 := by
    have : exp (5 / 2) ≤ exp 3 := exp_le_exp.2 (by norm_num)
    have e3 : exp 3 = exp 1 ^ 3 := by rw [← exp_nat_mul]; norm_num
    have : exp 1 ^ 3 < 3 ^ 3 := by gcongr; linarith
    norm_num at this; linarith
  have hexp1 : 1 ≤ exp (5 / 2) := one_le_exp (by norm_num)
  obtain ⟨x, hx⟩ : ∃ x : ℝ, x = 5 / 2 * exp (5 / 2) := ⟨_, rfl⟩
  have hx0 : 1 ≤ x := by linarith
  have hx1 : x < 100 := by linarith
  obtain ⟨L, hL⟩ : ∃ L, L = log x := ⟨_, rfl⟩
  have hL2 : L = 5 / 2 + (log 5 - log 2) := by
    rw [hL, hx, log_mul (by norm_num) (exp_pos _).ne', log_exp, log_div (by norm_num) (by norm_num)]; ring
  have hLl : 3.41629 < L := by
    have := log_two_lt_d9; have := log_five_gt_d9; norm_num at *; linarith
  have hLu : L < 3.4163 := by
    have := log_two_gt_d9; have := log_five_lt_d9; norm_num at *; linarith
  refine ⟨x, 5 / 2, (((-8.3436e-4 * L + 5.1352e-4) * L + 7.0871e-2) * L + 0.35642) * L + 0.56635, hx.symm, by linarith, hx1, ?_, ?_⟩
  · unfold fastW0
    have h1 : (100 : ℝ) ≤ maxInput0 := by
      unfold maxInput0
      calc (100 : ℝ) = 10 ^ 2 := by norm_num
        _ ≤ 10 ^ 300 := pow_le_pow_right₀ (by norm_num) (by norm_num)
    have h2 : 0 < 1 / exp 1 := by positivity
    rw [if_neg (by linarith), if_neg (by linarith), if_neg (by linarith), if_neg (by linarith)]
    simp only
    rw [if_neg (by linarith), if_pos hx1, ← hL]
  · have hL0 : 0 < L := by norm_num at hLl; linarith
    obtain ⟨a, ha⟩ : ∃ a, a = -8.3436e-4 * L + 5.1352e-4 := ⟨_, rfl⟩
    have ha1 : -0.0023369 - 0.00001 ≤ a := by rw [ha]; norm_num at *; linarith
    have ha2 : a ≤ -0.0023368 := by rw [ha]; norm_num at *; linarith
    obtain ⟨b, hb⟩ : ∃ b, b = a * L + 7.0871e-2 := ⟨_, rfl⟩
    have hb2 : b ≤ 0.06289 := by rw [hb]; norm_num at *; nlinarith
    have hb1 : 0 ≤ b := by rw [hb]; norm_num at *; nlinarith
    obtain ⟨c, hc⟩ : ∃ c, c = b * L + 0.35642 := ⟨_, rfl⟩
    have hc2 : c ≤ 0.57128 := by rw [hc]; norm_num at *; nlinarith
    have hc1 : 0 ≤ c := by rw [hc]; norm_num at *; nlinarith
    rw [← ha, ← hb, ← hc]
    have hr : c * L + 0.56635 ≤ 2.5182 := by norm_num at *; nlinarith
    have hcl : 0.5700 ≤ c := by
      have : 0.0625 ≤ b := by rw [hb]; norm_num at *; nlinarith
      rw [hc]; norm_num at *; nlinarith
    have hr2 : 2.5126 ≤ c * L + 0.56635 := by norm_num at *; nlinarith
    rw [abs_of_pos (by norm_num : (0 : ℝ) < 5 / 2), abs_of_pos (by norm_num at *; linarith)]
    norm_num at *; linarith

/-- The fast function is not monotone: it drops where its first two pieces meet. -/
theorem c75_fast_not_monotone :
    ∃ x y r s : ℝ, x < y ∧ fastW0 x = .val r ∧ fastW0 y = .val s ∧ s < r := by
  have hb : -(1 / exp 1) < (0 : ℝ) := by rw [neg_lt_zero]; positivity
  have h1 : (1 : ℝ) ≤ maxInput0 := one_le_pow₀ (by norm_num)
  refine ⟨0.00999, 1 / 100, 0.00999, 1 / 100 - exp ((4.123e-6 * log (1 / 100) + 2) * log (1 / 100) + 1.64e-4), by norm_num, ?_, ?_, ?_⟩
  · unfold fastW0
    rw [if_neg (by norm_num; linarith), if_neg (by have : (0 : ℝ) < 0.00999 := by norm_num
                                                   linarith), if_neg (by norm_num), if_pos (by norm_num)]
  · unfold fastW0
    rw [if_neg (by linarith), if_neg (by linarith), if_neg (by norm_num), if_neg (by norm_num)]
    simp only
    rw [if_pos (by norm_num)]
  · obtain ⟨L, hL⟩ : ∃ L : ℝ, L = log (1 / 100) := ⟨_, rfl⟩
    rw [← hL]
    have e : (1 / 100 : ℝ) ^ 2 = exp (L + L) := by rw [exp_add, hL, exp_log (by norm_num)]; ring
    have h2 : exp (L + L) ≤ exp ((4.123e-6 * L + 2) * L + 1.64e-4) := by
      apply exp_le_exp.2
      norm_num
      nlinarith [sq_nonneg L]
    rw [← e] at h2
    obtain ⟨z, hz⟩ : ∃ z, z = exp ((4.123e-6 * L + 2) * L + 1.64e-4) := ⟨_, rfl⟩
    rw [← hz] at h2 ⊢
    norm_num at h2 ⊢
    linarith

/-- The hypotheses can be met: 5 e^5, -0.1 e^-0.1 and -10 e^-10 have the values 5, -0.1 and -10 on their branches. -/
example : dblEps < (5 * exp 5 : ℝ) ∧ -(8 / 1000) < (-10 * exp (-10) : ℝ) ∧ solveW0 (-1) 0 = .thrown ∧
    (∀ c, solveW0 (-(1 / exp 1)) c = .val (-1)) := by
  have he := exp_one_gt_d9
  have hinv : 1 / exp 1 < 1 := by rw [div_lt_one (exp_pos 1)]; linarith
  refine ⟨?_, ?_, (c75_throws (-1) 0).1.2 (Or.inl (by linarith)), fun c =>
    ((c75_special (-(1 / exp 1)) c).1 le_rfl (by norm_num)).1⟩
  · have : (1 : ℝ) ≤ exp 5 := one_le_exp (by norm_num)
    have := dblEps_lt_one (K := ℝ)
    linarith
  · have h : exp 10 = exp 1 ^ 10 := by rw [← exp_nat_mul]; norm_num
    have h2 : (10000 : ℝ) < exp 10 := by
      rw [h]
      calc (10000 : ℝ) < 2.7 ^ 10 := by norm_num
        _ ≤ exp 1 ^ 10 := by gcongr; linarith
    rw [exp_neg]
    have h3 : (exp 10)⁻¹ < (10000 : ℝ)⁻¹ := inv_strictAnti₀ (by norm_num) h2
    norm_num at h3 ⊢
    linarith

end Gunns.Props
