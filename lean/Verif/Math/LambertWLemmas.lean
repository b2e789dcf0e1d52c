import Verif.Math.LambertW
import Mathlib.Analysis.Complex.ExponentialBounds
import Mathlib.Tactic.Linarith
import Mathlib.Tactic.FieldSimp
import Mathlib.Tactic.Ring
import Mathlib.Tactic.LinearCombination

/-!
# Lemmas on Lambert's W function

The residual of an estimate `w` is `log (x / w) - w`; the input is `w * exp (w + res)`.
-/

namespace Gunns.Lambert

open Real

/-- The residual. -/
noncomputable def res (x w : ℝ) : ℝ := log (x / w) - w

theorem res_spec {x w : ℝ} (h : 0 < x / w) : x = w * exp (w + res x w) := by
  have hw : w ≠ 0 := by rintro rfl; simp at h
  have e : w + res x w = log (x / w) := by unfold res; ring
  rw [e, exp_log h]
  field_simp

/-- The factor of a pass. -/
noncomputable def factor (x w : ℝ) : ℝ := (1 + log (x / w)) / (1 + w)

theorem pass_eq (x w : ℝ) : pass x w = w * factor x w := by unfold pass factor; ring

theorem factor_eq {x w : ℝ} (h : 1 + w ≠ 0) : factor x w = 1 + res x w / (1 + w) := by
  unfold factor res; field_simp; ring

theorem res_pass {x w : ℝ} (hx : 0 < x / w) (h : 1 + w ≠ 0) (hf : 0 < factor x w) :
    0 < x / pass x w ∧ res x (pass x w) = factor x w - 1 - log (factor x w) := by
  have hw : w ≠ 0 := by rintro rfl; simp at hx
  have e : x / pass x w = x / w / factor x w := by rw [pass_eq]; field_simp
  have h1 : factor x w * (1 + w) = 1 + log (x / w) := by unfold factor; field_simp
  refine ⟨by rw [e]; positivity, ?_⟩
  unfold res
  rw [e, log_div hx.ne' hf.ne', pass_eq]
  linear_combination -h1

theorem sub_log_nonneg {t : ℝ} (h : 0 < t) : 0 ≤ t - 1 - log t := by linarith [log_le_sub_one_of_pos h]

theorem sub_log_le_of_one_le {t : ℝ} (h : 1 ≤ t) : t - 1 - log t ≤ (t - 1) ^ 2 / 2 := by
  have h1 := Real.le_log_one_add_of_nonneg (x := t - 1) (by linarith)
  have e : 1 + (t - 1) = t := by ring
  rw [e] at h1
  have h2 : t - 1 - (t - 1) ^ 2 / 2 ≤ 2 * (t - 1) / (t - 1 + 2) := by
    rw [le_div_iff₀ (by linarith)]
    nlinarith [mul_nonneg (sub_nonneg.2 h) (sq_nonneg (t - 1))]
  linarith

/-- Below one the logarithm is bounded in the same way. -/
theorem sub_log_le_of_le_one {t : ℝ} (h0 : 0 < t) (h : t ≤ 1) : t - 1 - log t ≤ (1 - t) ^ 2 / (2 * t) := by
  have h1 := Real.le_log_one_add_of_nonneg (x := 1 / t - 1) (by rw [sub_nonneg, le_div_iff₀ h0]; linarith)
  have e : 1 + (1 / t - 1) = t⁻¹ := by ring
  rw [e, log_inv] at h1
  -- the upper bound of log v for v ≥ 1 is log v ≤ (v - 1/v)/2
  have hv : log t⁻¹ ≤ (t⁻¹ - t) / 2 := by
    have hs : 1 ≤ √t⁻¹ := by
      rw [Real.one_le_sqrt]
      exact (one_le_inv₀ h0).2 h
    have hmono : ∀ s : ℝ, 1 ≤ s → 2 * log s ≤ s - s⁻¹ := by
      intro s hs
      have hs0 : 0 < s := by linarith
      have key : MonotoneOn (fun s : ℝ => s - s⁻¹ - 2 * log s) (Set.Ici 1) := by
        apply monotoneOn_of_deriv_nonneg (convex_Ici 1)
        · apply ContinuousOn.sub
          · apply ContinuousOn.sub continuousOn_id
            exact continuousOn_id.inv₀ (fun y hy => by
              have : (1 : ℝ) ≤ y := hy
              simp only [id]; linarith)
          · apply ContinuousOn.mul continuousOn_const
            exact continuousOn_log.mono (fun y hy => by
              have : (1 : ℝ) ≤ y := hy
              simp only [Set.mem_compl_iff, Set.mem_singleton_iff]; linarith)
        · intro y hy
          rw [interior_Ici] at hy
          have hy1 : (1 : ℝ) < y := hy
          have hy0 : y ≠ 0 := by linarith
          exact (((hasDerivAt_id y).sub (hasDerivAt_inv hy0)).sub ((hasDerivAt_log hy0).const_mul 2)).differentiableAt.differentiableWithinAt
        · intro y hy
          rw [interior_Ici] at hy
          have hy1 : (1 : ℝ) < y := hy
          have hy0 : y ≠ 0 := by linarith
          have hd := (((hasDerivAt_id y).sub (hasDerivAt_inv hy0)).sub ((hasDerivAt_log hy0).const_mul 2)).deriv
          have e2 : deriv (fun s : ℝ => s - s⁻¹ - 2 * log s) y = 1 - -(y ^ 2)⁻¹ - 2 * y⁻¹ := hd
          rw [e2]
          have e3 : 1 - -(y ^ 2)⁻¹ - 2 * y⁻¹ = (1 - y⁻¹) ^ 2 := by field_simp; ring
          rw [e3]
          positivity
      have := key (Set.mem_Ici.2 le_rfl) (Set.mem_Ici.2 hs) hs
      simp at this
      linarith
    have h3 := hmono (t⁻¹) ((one_le_inv₀ h0).2 h)
    rw [inv_inv] at h3
    linarith
  rw [log_inv] at hv
  have e4 : (1 - t) ^ 2 / (2 * t) = t - 1 + (t⁻¹ - t) / 2 := by field_simp; ring
  rw [e4]
  linarith

/-- The loop: an invariant kept by the passes, on which the residual decreases quadratically. -/
theorem improve_run {x c : ℝ} (Inv : ℝ → Prop) (A b : ℝ) (hA : 0 < A) (hb : 0 ≤ b)
    (hdef : ∀ w, Inv w → 0 < x / w ∧ 1 + w ≠ 0)
    (hstep : ∀ w, Inv w → 0 ≤ res x w → Inv (pass x w) ∧ 0 ≤ res x (pass x w) ∧ res x (pass x w) ≤ res x w ^ 2 / A ∧
      res x (pass x w) ≤ ((pass x w - w) / w) ^ 2) :
    ∀ n w, Inv w → 0 ≤ res x w → res x w ≤ A * b → ∃ r, improve x c n w = .val r ∧ Inv r ∧ 0 ≤ res x r ∧
      (res x r ≤ A * b ^ (2 ^ n) ∨ ∃ p, |r - p| ≤ c ∧ res x r ≤ ((r - p) / p) ^ 2) := by
  intro n
  induction n generalizing b with
  | zero => intro w hw h0 h1; exact ⟨w, rfl, hw, h0, Or.inl (by simpa using h1)⟩
  | succ n ih =>
    intro w hw h0 h1
    obtain ⟨hi, hr0, hr1, hr2⟩ := hstep w hw h0
    unfold improve
    rw [if_pos (hdef w hw)]
    by_cases hc : |pass x w - w| ≤ c
    · rw [if_pos hc]
      exact ⟨_, rfl, hi, hr0, Or.inr ⟨w, hc, hr2⟩⟩
    · rw [if_neg hc]
      have h2 : res x (pass x w) ≤ A * b ^ 2 := by
        refine hr1.trans ?_
        rw [div_le_iff₀ hA]
        calc res x w ^ 2 ≤ (A * b) ^ 2 := by gcongr
          _ = A * b ^ 2 * A := by ring
      obtain ⟨r, e, hri, hr, hq⟩ := ih (b ^ 2) (by positivity) (pass x w) hi hr0 h2
      refine ⟨r, e, hri, hr, ?_⟩
      rw [← pow_mul] at hq
      have e2 : 2 * 2 ^ n = 2 ^ (n + 1) := by ring
      rw [e2] at hq
      exact hq

/-- The same without a rate. -/
theorem improve_inv {x c : ℝ} (Inv : ℝ → Prop)
    (hdef : ∀ w, Inv w → 0 < x / w ∧ 1 + w ≠ 0)
    (hstep : ∀ w, Inv w → Inv (pass x w) ∧ 0 ≤ res x (pass x w)) :
    ∀ n w, Inv w → (n = 0 → 0 ≤ res x w) → ∃ r, improve x c n w = .val r ∧ Inv r ∧ 0 ≤ res x r := by
  intro n
  induction n with
  | zero => intro w hw h0; exact ⟨w, rfl, hw, h0 rfl⟩
  | succ n ih =>
    intro w hw _
    obtain ⟨hi, hr0⟩ := hstep w hw
    unfold improve
    rw [if_pos (hdef w hw)]
    by_cases hc : |pass x w - w| ≤ c
    · rw [if_pos hc]; exact ⟨_, rfl, hi, hr0⟩
    · rw [if_neg hc]; exact ih _ hi (fun _ => hr0)

/-! ## Positive inputs -/

theorem step_pos {x : ℝ} (hx : 0 < x) (w : ℝ) (hw : 0 < w) (h0 : 0 ≤ res x w) :
    0 < pass x w ∧ 0 ≤ res x (pass x w) ∧ res x (pass x w) ≤ res x w ^ 2 / 2 ∧
      res x (pass x w) ≤ ((pass x w - w) / w) ^ 2 := by
  have h1 : 1 + w ≠ 0 := by positivity
  have hf : 1 ≤ factor x w := by rw [factor_eq h1]; linarith [div_nonneg h0 (by positivity : (0 : ℝ) ≤ 1 + w)]
  have hf0 : 0 < factor x w := by linarith
  obtain ⟨_, hr⟩ := res_pass (div_pos hx hw) h1 hf0
  have hl := sub_log_le_of_one_le hf
  have e : (pass x w - w) / w = factor x w - 1 := by rw [pass_eq]; field_simp
  refine ⟨by rw [pass_eq]; positivity, by rw [hr]; exact sub_log_nonneg hf0, ?_, ?_⟩
  · rw [hr]
    refine hl.trans ?_
    have h2 : factor x w - 1 ≤ res x w := by
      rw [factor_eq h1, add_sub_cancel_left]
      exact div_le_self h0 (by linarith)
    have h3 : (factor x w - 1) ^ 2 ≤ res x w ^ 2 := by
      apply pow_le_pow_left₀ (by linarith) h2
    linarith
  · rw [hr, e]
    linarith [sq_nonneg (factor x w - 1)]

theorem log_le_div_exp {l : ℝ} (h : 0 < l) : log l ≤ l / exp 1 := by
  have h1 := log_le_sub_one_of_pos (div_pos h (exp_pos 1))
  rw [log_div h.ne' (exp_pos 1).ne', log_exp] at h1
  linarith

theorem two_le_exp_one : (2 : ℝ) ≤ exp 1 := by linarith [exp_one_gt_d9]

theorem start0_pos {x : ℝ} (hx : 0 < x) : 0 < start0 x ∧ 0 ≤ res x (start0 x) ∧ res x (start0 x) ≤ 1 := by
  have he : 0 < exp 1 := exp_pos 1
  unfold start0
  by_cases h : x > exp 1
  · rw [if_pos h]
    obtain ⟨l, hl⟩ : ∃ l, l = log x := ⟨_, rfl⟩
    rw [← hl]
    have hl1 : 1 < l := by rw [hl, lt_log_iff_exp_lt hx]; exact h
    have hl0 : 0 < l := by linarith
    have hll : 0 ≤ log l := log_nonneg hl1.le
    have hlu : log l ≤ l / exp 1 := log_le_div_exp hl0
    have hhalf : l / exp 1 ≤ l / 2 := by gcongr; exact two_le_exp_one
    have hw : 0 < l - log l := by linarith
    have e : res x (l - log l) = log (l / (l - log l)) := by
      unfold res
      rw [log_div hx.ne' hw.ne', log_div hl0.ne' hw.ne', ← hl]; ring
    refine ⟨hw, ?_, ?_⟩
    · rw [e]
      apply log_nonneg
      rw [le_div_iff₀ hw]; linarith
    · rw [e, log_le_iff_le_exp (by positivity), div_le_iff₀ hw]
      nlinarith [two_le_exp_one]
  · rw [if_neg h, if_pos hx]
    have hw : 0 < x / exp 1 := by positivity
    have e : res x (x / exp 1) = 1 - x / exp 1 := by
      unfold res
      have : x / (x / exp 1) = exp 1 := by field_simp
      rw [this, log_exp]
    have h1 : x / exp 1 ≤ 1 := by rw [div_le_one he]; exact not_lt.1 h
    refine ⟨hw, by rw [e]; linarith, by rw [e]; linarith⟩

theorem solve_pos {x c : ℝ} (hx : 0 < x) : ∃ r, improve x c iterLimit (start0 x) = .val r ∧ 0 < r ∧ 0 ≤ res x r ∧
    (res x r ≤ 2 * (1 / 2) ^ 1024 ∨ ∃ p, |r - p| ≤ c ∧ res x r ≤ ((r - p) / p) ^ 2) := by
  obtain ⟨h0, h1, h2⟩ := start0_pos hx
  have := improve_run (x := x) (c := c) (fun w => 0 < w) 2 (1 / 2) (by norm_num) (by norm_num)
    (fun w hw => ⟨div_pos hx hw, by positivity⟩) (fun w hw h => step_pos hx w hw h) 10 (start0 x) h0 h1 (by linarith)
  exact this

/-! ## Negative inputs -/

/-- The tangent at any estimate is above zero at -1. -/
theorem log_lt {y a : ℝ} (hy : 0 < y) (hye : y < 1 / exp 1) (ha : 0 < a) : log (y / a) < 1 / a - 2 := by
  have h1 : log y < -1 := by
    rw [log_lt_iff_lt_exp hy, exp_neg, inv_eq_one_div]; exact hye
  have h2 := one_sub_inv_le_log_of_pos ha
  rw [log_div hy.ne' ha.ne', one_div]
  linarith

theorem neg_div {x w : ℝ} : x / w = -x / -w := by rw [neg_div_neg_eq]

theorem factor_neg {y a : ℝ} : factor (-y) (-a) = (1 + log (y / a)) / (1 - a) := by
  unfold factor
  rw [neg_div_neg_eq, ← sub_eq_add_neg]

/-- Principal branch: what a pass keeps. -/
theorem step_neg0 {x : ℝ} (hx : x < 0) (hxe : -(1 / exp 1) < x) (w : ℝ) (hw : -1 < w) (hw0 : w < 0) (h0 : 0 ≤ res x w) :
    (-1 < pass x w ∧ pass x w < 0) ∧ 0 ≤ res x (pass x w) ∧ res x (pass x w) ≤ (res x w / (1 + w)) ^ 2 / 2 ∧
      res x (pass x w) ≤ ((pass x w - w) / w) ^ 2 := by
  have h1 : 1 + w ≠ 0 := by linarith
  have h1' : 0 < 1 + w := by linarith
  have hd : 0 < x / w := div_pos_of_neg_of_neg hx hw0
  have hf : 1 ≤ factor x w := by rw [factor_eq h1]; linarith [div_nonneg h0 h1'.le]
  have hf0 : 0 < factor x w := by linarith
  obtain ⟨_, hr⟩ := res_pass hd h1 hf0
  have hl := sub_log_le_of_one_le hf
  have e : (pass x w - w) / w = factor x w - 1 := by
    rw [pass_eq]; have := hw0.ne; field_simp
  have hlog := log_lt (y := -x) (a := -w) (by linarith) (by linarith) (by linarith)
  rw [neg_div_neg_eq] at hlog
  refine ⟨⟨?_, ?_⟩, by rw [hr]; exact sub_log_nonneg hf0, ?_, ?_⟩
  · unfold pass
    rw [lt_div_iff₀ h1']
    have h3 : -w * (1 + log (x / w)) < -w * (1 + (1 / -w - 2)) := by
      apply mul_lt_mul_of_pos_left (by linarith) (by linarith)
    have e3 : -w * (1 + (1 / -w - 2)) = 1 + w := by have := hw0.ne; field_simp; ring
    nlinarith
  · rw [pass_eq]; exact mul_neg_of_neg_of_pos hw0 hf0
  · rw [hr]
    have e2 : res x w / (1 + w) = factor x w - 1 := by rw [factor_eq h1]; ring
    rw [e2]; exact hl
  · rw [hr, e]
    linarith [sq_nonneg (factor x w - 1)]

/-- Estimates with a residual that is not negative are not below `-1 + √(1 + e x)`. -/
theorem root_bound {x w q : ℝ} (hq : 0 ≤ q) (hq1 : q < 1) (hx : x = -((1 - q ^ 2) / exp 1)) (hw : -1 < w) (hw0 : w < 0)
    (h0 : 0 ≤ res x w) : q ≤ 1 + w := by
  by_contra hc
  have hc' : w < q - 1 := by linarith
  have hx0 : x < 0 := by
    rw [hx, neg_lt_zero]
    apply div_pos _ (exp_pos 1)
    nlinarith
  have hd : 0 < x / w := div_pos_of_neg_of_neg hx0 hw0
  -- w e^w ≤ (q-1) e^(q-1) as w < q - 1 and the function decreases before -1 ... ; use the logarithm
  have h1 : w ≤ log (x / w) := by unfold res at h0; linarith
  have h2 : exp w ≤ x / w := by rw [← exp_log hd]; exact exp_le_exp.2 h1
  have h3 : exp w * -w ≤ -x := by
    have : x / w * -w = -x := by have := hw0.ne; field_simp
    rw [← this]
    exact mul_le_mul_of_nonneg_right h2 (by linarith)
  -- a := -w > 1 - q
  have h4 : exp (q - 1) * (1 - q) < exp w * -w := by
    -- (1-q)/(-w) < exp (w - (q-1))
    have hlog := one_sub_inv_le_log_of_pos (x := -w / (1 - q)) (div_pos (by linarith) (by linarith))
    have hlt : (1 - q) / -w < 1 := by rw [div_lt_one (by linarith)]; linarith
    have h5 : q - 1 - w < log (-w / (1 - q)) := by
      refine lt_of_lt_of_le ?_ hlog
      rw [inv_div]
      have : 1 - (1 - q) / -w = (-w - (1 - q)) / -w := by
        have := hw0.ne; field_simp; ring
      rw [this, lt_div_iff₀ (by linarith)]
      nlinarith
    rw [lt_log_iff_exp_lt (div_pos (by linarith) (by linarith)), lt_div_iff₀ (by linarith)] at h5
    have h6 : exp (q - 1) = exp (q - 1 - w) * exp w := by rw [← exp_add]; congr 1; ring
    rw [h6]
    nlinarith [exp_pos w]
  have h7 : -x ≤ exp (q - 1) * (1 - q) := by
    rw [hx, neg_neg, exp_sub]
    have : q + 1 ≤ exp q := add_one_le_exp q
    rw [div_mul_eq_mul_div]
    apply div_le_div_of_nonneg_right _ (exp_pos 1).le
    nlinarith
  linarith

theorem start0_neg {x : ℝ} (hx : x < 0) (hxe : -(1 / exp 1) < x) : ∃ q : ℝ, 0 < q ∧ q < 1 ∧ x = -((1 - q ^ 2) / exp 1) ∧
    (-1 < start0 x ∧ start0 x < 0) ∧ 0 ≤ res x (start0 x) ∧ res x (start0 x) ≤ 2 * q ^ 2 * (1 / 10) := by
  have he : 0 < exp 1 := exp_pos 1
  have ht : -1 < exp 1 * x := by
    have := mul_lt_mul_of_pos_left hxe he
    have e : exp 1 * -(1 / exp 1) = -1 := by field_simp
    linarith
  have ht0 : exp 1 * x < 0 := mul_neg_of_pos_of_neg he hx
  obtain ⟨q, hq⟩ : ∃ q, q = √(1 + exp 1 * x) := ⟨_, rfl⟩
  have hq2 : q ^ 2 = 1 + exp 1 * x := by rw [hq, sq_sqrt (by linarith)]
  have hq0 : 0 < q := by rw [hq]; exact sqrt_pos.2 (by linarith)
  have hq1 : q < 1 := by nlinarith
  have hexq : exp 1 * x = -(1 - q ^ 2) := by rw [hq2]; ring
  have hxq : x = -((1 - q ^ 2) / exp 1) := by
    have e : 1 - q ^ 2 = -(exp 1 * x) := by rw [hexq]; ring
    rw [e]; field_simp
  have hstart : start0 x = -((1 - q) * (log (1 + q) / q)) := by
    unfold start0
    rw [if_neg (by linarith), if_neg (by linarith)]
    simp only
    rw [← hq, hexq]
    have e : -(1 - q ^ 2) + (1 + q) = q * (1 + q) := by ring
    rw [e]
    field_simp
    ring
  obtain ⟨u, hu⟩ : ∃ u, u = log (1 + q) / q := ⟨_, rfl⟩
  have hlog1 : log (1 + q) ≤ q := by
    have := log_le_sub_one_of_pos (by linarith : (0 : ℝ) < 1 + q); linarith
  have hlog2 : 2 * q / (q + 2) ≤ log (1 + q) := le_log_one_add_of_nonneg hq0.le
  have hu1 : u ≤ 1 := by rw [hu, div_le_one hq0]; exact hlog1
  have hu2 : 2 / (q + 2) ≤ u := by
    rw [hu, le_div_iff₀ hq0]
    have : 2 / (q + 2) * q = 2 * q / (q + 2) := by ring
    rw [this]; exact hlog2
  have hu3 : 2 / 3 ≤ u := by
    refine le_trans ?_ hu2
    rw [div_le_div_iff₀ (by norm_num) (by linarith)]; linarith
  have hu4 : 1 - u ≤ q / 2 := by
    have : 1 - q / 2 ≤ 2 / (q + 2) := by
      rw [le_div_iff₀ (by linarith)]; nlinarith
    linarith
  have hu0 : 0 < u := by linarith
  rw [← hu] at hstart
  have hs1 : 0 < (1 - q) * u := mul_pos (by linarith) hu0
  have hs2 : (1 - q) * u < 1 := by nlinarith
  have hres : res x (start0 x) = u - 1 - log u := by
    unfold res
    have e : x / start0 x = (1 + q) / (exp 1 * u) := by
      rw [hstart, hxq, neg_div_neg_eq, div_div, div_eq_div_iff (by
        have : 0 < exp 1 * ((1 - q) * u) := by positivity
        exact this.ne') (by positivity)]
      ring
    rw [e, log_div (by linarith) (by positivity), log_mul he.ne' hu0.ne', log_exp, hstart]
    have e2 : log (1 + q) = u * q := by rw [hu]; field_simp
    rw [e2]; ring
  refine ⟨q, hq0, hq1, hxq, ⟨by rw [hstart]; linarith, by rw [hstart]; linarith⟩, by rw [hres]; exact sub_log_nonneg hu0, ?_⟩
  rw [hres]
  refine (sub_log_le_of_le_one hu0 hu1).trans ?_
  rw [div_le_iff₀ (by linarith)]
  have h5 : (1 - u) ^ 2 ≤ (q / 2) ^ 2 := pow_le_pow_left₀ (by linarith) hu4 2
  nlinarith [sq_nonneg q, mul_nonneg (sq_nonneg q) (by linarith : (0 : ℝ) ≤ u - 2 / 3)]

theorem solve_neg0 {x c : ℝ} (hx : x < 0) (hxe : -(1 / exp 1) < x) : ∃ r, improve x c iterLimit (start0 x) = .val r ∧
    (-1 < r ∧ r < 0) ∧ 0 ≤ res x r ∧
    (res x r ≤ 2 * (1 / 10) ^ 1024 ∨ ∃ p, |r - p| ≤ c ∧ res x r ≤ ((r - p) / p) ^ 2) := by
  obtain ⟨q, hq0, hq1, hxq, h0, h1, h2⟩ := start0_neg hx hxe
  have := improve_run (x := x) (c := c) (fun w => -1 < w ∧ w < 0) (2 * q ^ 2) (1 / 10) (by positivity) (by norm_num)
    (fun w hw => ⟨div_pos_of_neg_of_neg hx hw.2, by linarith [hw.1]⟩) (fun w hw h => by
      obtain ⟨a, b, d, e⟩ := step_neg0 hx hxe w hw.1 hw.2 h
      refine ⟨a, b, d.trans ?_, e⟩
      have hb := root_bound hq0.le hq1 hxq hw.1 hw.2 h
      rw [div_pow, div_div, div_le_div_iff₀ (by nlinarith) (by positivity)]
      have : q ^ 2 ≤ (1 + w) ^ 2 := pow_le_pow_left₀ hq0.le hb 2
      nlinarith [sq_nonneg (res x w), mul_nonneg (sq_nonneg (res x w)) (sub_nonneg.2 this)]) 10 (start0 x) h0 h1 h2
  obtain ⟨r, e, hi, hr, hor⟩ := this
  refine ⟨r, e, hi, hr, hor.imp (fun h => h.trans ?_) id⟩
  have : (2 : ℝ) * q ^ 2 ≤ 2 := by nlinarith
  exact mul_le_mul_of_nonneg_right this (by positivity)

/-- The other branch: what a pass keeps. -/
theorem step_neg1 {x : ℝ} (hx : x < 0) (hxe : -(1 / exp 1) < x) (w : ℝ) (hw : w < -1) :
    pass x w < -1 ∧ 0 < factor x w ∧ 0 ≤ res x (pass x w) ∧ res x (pass x w) = factor x w - 1 - log (factor x w) := by
  have h1 : 1 + w ≠ 0 := by linarith
  have h1' : 0 < -(1 + w) := by linarith
  have hd : 0 < x / w := div_pos_of_neg_of_neg hx (by linarith)
  have hlog := log_lt (y := -x) (a := -w) (by linarith) (by linarith) (by linarith)
  rw [neg_div_neg_eq] at hlog
  have hw1 : 1 / -w < 1 := by rw [div_lt_one (by linarith)]; linarith
  have hf : 0 < factor x w := by
    unfold factor
    exact div_pos_of_neg_of_neg (by linarith) (by linarith)
  obtain ⟨_, hr⟩ := res_pass hd h1 hf
  refine ⟨?_, hf, by rw [hr]; exact sub_log_nonneg hf, hr⟩
  have e : pass x w = -w * (1 + log (x / w)) / -(1 + w) := by
    unfold pass; rw [← neg_div_neg_eq]; congr 1; ring
  rw [e, div_lt_iff₀ h1']
  have h3 : -w * (1 + log (x / w)) < -w * (1 + (1 / -w - 2)) := by
    apply mul_lt_mul_of_pos_left (by linarith) (by linarith)
  have e3 : -w * (1 + (1 / -w - 2)) = 1 + w := by
    have : w ≠ 0 := by linarith
    field_simp; ring
  nlinarith

theorem start1_lt {x : ℝ} (hx : x < 0) (hxe : -(1 / exp 1) < x) : start1 x < -1 := by
  have he : 0 < exp 1 := exp_pos 1
  unfold start1
  by_cases h : x > discriminator
  · rw [if_pos h]
    obtain ⟨l, hl⟩ : ∃ l, l = -log (-x) := ⟨_, rfl⟩
    have h1 : 1 < l := by
      rw [hl]
      have : log (-x) < -1 := by
        rw [log_lt_iff_lt_exp (by linarith), exp_neg, inv_eq_one_div]; linarith
      linarith
    have h2 : 0 ≤ log l := log_nonneg h1.le
    rw [← hl]
    linarith
  · rw [if_neg h]
    have ht : -1 < exp 1 * x := by
      have := mul_lt_mul_of_pos_left hxe he
      have e : exp 1 * -(1 / exp 1) = -1 := by field_simp
      linarith
    have : 0 < √(2 + 2 * exp 1 * x) := sqrt_pos.2 (by linarith)
    linarith

theorem solve_neg1 {x c : ℝ} (hx : x < 0) (hxe : -(1 / exp 1) < x) : ∃ r, improve x c iterLimit (start1 x) = .val r ∧
    r < -1 ∧ 0 ≤ res x r :=
  improve_inv (x := x) (c := c) (fun w => w < -1)
    (fun w hw => ⟨div_pos_of_neg_of_neg hx (by linarith), by linarith⟩)
    (fun w hw => ⟨(step_neg1 hx hxe w hw).1, (step_neg1 hx hxe w hw).2.2.1⟩) 10 (start1 x) (start1_lt hx hxe)
    (by norm_num)

/-! ## The other branch near zero -/

theorem step_left {x : ℝ} (hx : x < 0) (hx4 : 4 < -log (-x)) (hxe : -(1 / exp 1) < x) (w : ℝ) (hw : w ≤ -4) (h0 : 0 ≤ res x w)
    (h1 : res x w ≤ 1) :
    (pass x w ≤ -4 ∧ res x (pass x w) ≤ 1) ∧ 0 ≤ res x (pass x w) ∧ res x (pass x w) ≤ res x w ^ 2 / 1 ∧
      res x (pass x w) ≤ ((pass x w - w) / w) ^ 2 := by
  obtain ⟨hp, hf, hr0, hr⟩ := step_neg1 hx hxe w (by linarith)
  have e : (pass x w - w) / w = factor x w - 1 := by
    rw [pass_eq]; have : w ≠ 0 := by linarith
    field_simp
  have hfe := factor_eq (x := x) (w := w) (by linarith)
  obtain ⟨d, hd⟩ : ∃ d, d = res x w / -(1 + w) := ⟨_, rfl⟩
  have hfd : factor x w = 1 - d := by rw [hfe, hd, div_neg]; ring
  have hd0 : 0 ≤ d := by rw [hd]; exact div_nonneg h0 (by linarith)
  have hd1 : d ≤ res x w / 3 := by rw [hd]; apply div_le_div_of_nonneg_left h0 (by norm_num) (by linarith)
  have hb : res x (pass x w) ≤ d ^ 2 := by
    rw [hr]
    refine (sub_log_le_of_le_one hf (by linarith)).trans ?_
    rw [hfd, div_le_iff₀ (by linarith)]
    nlinarith [sq_nonneg d, mul_nonneg (sq_nonneg d) (by linarith : (0 : ℝ) ≤ 1 / 3 - d)]
  have hb2 : d ^ 2 ≤ res x w ^ 2 := pow_le_pow_left₀ hd0 (by linarith) 2
  have hb3 : res x w ^ 2 ≤ 1 := pow_le_one₀ h0 h1
  refine ⟨⟨?_, by linarith⟩, hr0, by linarith, by rw [e, hfd]; linarith [sq_nonneg d]⟩
  have h5 : pass x w ≤ log (x / pass x w) := by unfold res at hr0; linarith
  rw [← neg_div_neg_eq, log_div (by linarith) (by linarith)] at h5
  have h6 : 0 ≤ log (-pass x w) := log_nonneg (by linarith)
  linarith

theorem start1_near {x : ℝ} (hx : x < 0) (hxd : discriminator < x) : -(1 / exp 1) < x ∧ 4 < -log (-x) ∧
    (pass x (start1 x) ≤ -4 ∧ res x (pass x (start1 x)) ≤ 1) ∧ 0 ≤ res x (pass x (start1 x)) ∧
    res x (pass x (start1 x)) ≤ 1 / 200 ∧
    res x (pass x (start1 x)) ≤ ((pass x (start1 x) - start1 x) / start1 x) ^ 2 := by
  have he : 0 < exp 1 := exp_pos 1
  have heu := exp_one_lt_d9
  have hel := exp_one_gt_d9
  unfold discriminator at hxd
  have hxe : -(1 / exp 1) < x := by
    have : 1 / 3 ≤ 1 / exp 1 := by apply one_div_le_one_div_of_le he; linarith
    linarith
  have hx4 : 4 < -log (-x) := by
    have h1 : log (-x) < -4 := by
      rw [log_lt_iff_lt_exp (by linarith), exp_neg]
      have h2 : exp 4 < 125 := by
        have : exp 4 = exp 1 ^ 4 := by rw [← exp_nat_mul]; norm_num
        rw [this]
        calc exp 1 ^ 4 < 3 ^ 4 := by gcongr; linarith
          _ < 125 := by norm_num
      have h3 : (125 : ℝ)⁻¹ < (exp 4)⁻¹ := by
        rw [inv_lt_inv₀ (by norm_num) (exp_pos 4)]; exact h2
      norm_num at h3 ⊢
      linarith
    linarith
  obtain ⟨l, hl⟩ : ∃ l, l = -log (-x) := ⟨_, rfl⟩
  rw [← hl] at hx4
  have hl0 : 0 < l := by linarith
  have hll : 1 < log l := by
    rw [lt_log_iff_exp_lt hl0]; linarith
  have hlu := log_le_div_exp hl0
  have hs : start1 x = -(l + log l) := by
    unfold start1 discriminator
    rw [if_pos hxd, ← hl]
    have : log (-x) = -l := by rw [hl]; ring
    rw [this]; ring
  have hres : res x (start1 x) = -log (1 + log l / l) := by
    unfold res
    have e1 : 1 + log l / l = (l + log l) / l := by field_simp
    rw [hs, ← neg_div_neg_eq, neg_neg, log_div (by linarith) (by linarith), e1, log_div (by linarith) hl0.ne']
    have : log (-x) = -l := by rw [hl]; ring
    rw [this]; ring
  have hr1 : log (1 + log l / l) ≤ 1 / exp 1 := by
    have h1 : log l / l ≤ 1 / exp 1 := by
      rw [div_le_div_iff₀ hl0 he]
      rw [le_div_iff₀ he] at hlu; linarith
    have := log_le_sub_one_of_pos (by positivity : 0 < 1 + log l / l)
    linarith
  have hr2 : 0 ≤ log (1 + log l / l) := by
    apply log_nonneg
    have : 0 < log l / l := by positivity
    linarith
  have h1e : 1 / exp 1 ≤ 0.37 := by rw [div_le_iff₀ he]; linarith
  obtain ⟨hp, hf, hr0, hr⟩ := step_neg1 hx hxe (start1 x) (start1_lt hx hxe)
  have hfe := factor_eq (x := x) (w := start1 x) (by rw [hs]; linarith)
  obtain ⟨d, hd⟩ : ∃ d, d = log (1 + log l / l) / (l + log l - 1) := ⟨_, rfl⟩
  have hfd : factor x (start1 x) = 1 + d := by
    rw [hfe, hres, hs, hd]
    have : 1 + -(l + log l) = -(l + log l - 1) := by ring
    rw [this, neg_div_neg_eq]
  have hd0 : 0 ≤ d := by rw [hd]; exact div_nonneg hr2 (by linarith)
  have hd1 : d ≤ 0.0925 := by
    rw [hd, div_le_iff₀ (by linarith)]
    linarith
  have hb := sub_log_le_of_one_le (t := factor x (start1 x)) (by linarith)
  rw [← hr, hfd] at hb
  have hb2 : (1 + d - 1) ^ 2 ≤ 0.0925 ^ 2 := pow_le_pow_left₀ (by linarith) (by linarith) 2
  have e : (pass x (start1 x) - start1 x) / start1 x = d := by
    rw [pass_eq, hfd]; have : start1 x ≠ 0 := by rw [hs]; linarith
    field_simp; ring
  have h5 : pass x (start1 x) ≤ log (x / pass x (start1 x)) := by unfold res at hr0; linarith
  rw [← neg_div_neg_eq, log_div (by linarith) (by linarith)] at h5
  have h6 : 0 ≤ log (-pass x (start1 x)) := log_nonneg (by linarith)
  have h7 : log (-x) = -l := by rw [hl]; ring
  refine ⟨hxe, by rw [← hl]; exact hx4, ⟨by linarith, by norm_num at hb2 ⊢; linarith⟩, hr0, by norm_num at hb2 ⊢; linarith, ?_⟩
  rw [e]
  have : 1 + d - 1 = d := by ring
  rw [this] at hb
  linarith [sq_nonneg d]

theorem solve_near1 {x c : ℝ} (hx : x < 0) (hxd : discriminator < x) : ∃ r, improve x c iterLimit (start1 x) = .val r ∧
    r ≤ -4 ∧ 0 ≤ res x r ∧
    (res x r ≤ (1 / 200) ^ 512 ∨ ∃ p, |r - p| ≤ c ∧ res x r ≤ ((r - p) / p) ^ 2) := by
  obtain ⟨hxe, hx4, h0, h1, h2, h3⟩ := start1_near hx hxd
  have hst := start1_lt hx hxe
  have he : improve x c iterLimit (start1 x) = if |pass x (start1 x) - start1 x| ≤ c then .val (pass x (start1 x))
      else improve x c 9 (pass x (start1 x)) := by
    have e1 : improve x c (9 + 1) (start1 x) = if 0 < x / start1 x ∧ 1 + start1 x ≠ 0 then
      if |pass x (start1 x) - start1 x| ≤ c then .val (pass x (start1 x)) else improve x c 9 (pass x (start1 x))
      else .nan := rfl
    rw [if_pos ⟨div_pos_of_neg_of_neg hx (by linarith), by linarith⟩] at e1
    exact e1
  rw [he]
  by_cases hc : |pass x (start1 x) - start1 x| ≤ c
  · rw [if_pos hc]
    exact ⟨_, rfl, h0.1, h1, Or.inr ⟨_, hc, h3⟩⟩
  · rw [if_neg hc]
    obtain ⟨r, e, hi, hr, hq⟩ := improve_run (x := x) (c := c) (fun w => w ≤ -4 ∧ res x w ≤ 1) 1 (1 / 200) (by norm_num)
      (by norm_num) (fun w hw => ⟨div_pos_of_neg_of_neg hx (by linarith [hw.1]), by linarith [hw.1]⟩)
      (fun w hw h => step_left hx hx4 hxe w hw.1 h hw.2) 9 (pass x (start1 x)) h0 h1 (by linarith)
    refine ⟨r, e, hi.1, hr, ?_⟩
    rw [one_mul] at hq
    exact hq

/-! ## The fast functions -/

/-- What W is: a number above -1 for the principal branch. -/
theorem fast_small {x W : ℝ} (hl : -(1 / 100) < x) (hu : x < 1 / 100) (hW : -1 ≤ W) (h : W * exp W = x) :
    |x - W| ≤ 0.0102 * |W| := by
  have e : x - W = W * (exp W - 1) := by rw [← h]; ring
  rw [e, abs_mul, mul_comm]
  apply mul_le_mul_of_nonneg_right _ (abs_nonneg W)
  have h1 : W + 1 ≤ exp W := add_one_le_exp W
  by_cases h0 : 0 ≤ W
  · -- W ≤ x < 1/100
    have hWx : W ≤ 1 / 100 := by
      by_contra hc
      push Not at hc
      nlinarith
    have h2 : exp W ≤ 1 / (1 - W) := by
      have := one_sub_le_exp_neg W
      rw [exp_neg] at this
      rw [le_div_iff₀ (by linarith)]
      calc exp W * (1 - W) ≤ exp W * (exp W)⁻¹ := by gcongr
        _ = 1 := mul_inv_cancel₀ (exp_pos W).ne'
    have h3 : 1 / (1 - W) ≤ 1.0102 := by
      rw [div_le_iff₀ (by linarith)]; norm_num at hWx ⊢; linarith
    rw [abs_of_nonneg (by linarith)]
    linarith
  · push Not at h0
    have h2 : exp W ≤ 1 := exp_le_one_iff.2 h0.le
    rw [abs_of_nonpos (by linarith)]
    -- -W e^W < 1/100; W > -0.0102
    have hWx : -0.0102 ≤ W := by
      by_contra hc
      push Not at hc
      have h3 : -W * exp W < 1 / 100 := by linarith
      -- either W ≥ -1/2 : e^W ≥ 1 + W ≥ ... or W < -1/2: e^W > 1/e
      have h5 : -W * (1 + W) < 1 / 100 := by nlinarith
      by_cases h6 : -(1 / 2) ≤ W
      · nlinarith
      · push Not at h6
        have h7 : exp (-1) ≤ exp W := exp_le_exp.2 hW
        have h8 : 1 / 3 ≤ exp (-1) := by
          rw [exp_neg, inv_eq_one_div]
          apply one_div_le_one_div_of_le (exp_pos 1); linarith [exp_one_lt_d9]
        nlinarith
    linarith

theorem exp_le_quad {t : ℝ} (h0 : 0 ≤ t) (h1 : t ≤ 1 / 2) : exp t ≤ 1 + t + t ^ 2 := by
  have h := Real.exp_bound' h0 (by linarith) (n := 2) (by norm_num)
  norm_num [Finset.sum_range_succ, Nat.factorial] at h
  nlinarith [sq_nonneg t]

theorem fast_tenth {x W : ℝ} (hl : 1 / 100 ≤ x) (hu : x < 1 / 10) (hW : -1 ≤ W) (h : W * exp W = x) :
    |x - exp ((4.123e-6 * log x + 2) * log x + 1.64e-4) - W| ≤ 0.02 * W := by
  have hx : 0 < x := by linarith
  have hW0 : 0 < W := by
    by_contra hc; push Not at hc
    nlinarith [exp_pos W]
  have h1 : W + 1 ≤ exp W := add_one_le_exp W
  have hWu : W ≤ 0.092 := by
    by_contra hc; push Not at hc
    nlinarith
  have h2 : exp W ≤ 1 + W + W ^ 2 := exp_le_quad hW0.le (by norm_num at hWu ⊢; linarith)
  have hlog0 : log x ≤ 0 := log_nonpos hx.le (by linarith)
  have hlog1 : -5 ≤ log x := by
    rw [le_log_iff_exp_le hx, exp_neg]
    have h5 : (100 : ℝ) ≤ exp 5 := by
      have : exp 5 = exp 1 ^ 5 := by rw [← exp_nat_mul]; norm_num
      rw [this]
      calc (100 : ℝ) ≤ 2.7 ^ 5 := by norm_num
        _ ≤ exp 1 ^ 5 := by gcongr; linarith [exp_one_gt_d9]
    have : (exp 5)⁻¹ ≤ 100⁻¹ := inv_anti₀ (by norm_num) h5
    norm_num at this hl ⊢
    linarith
  obtain ⟨k, hk⟩ : ∃ k, k = 4.123e-6 * (log x) ^ 2 + 1.64e-4 := ⟨_, rfl⟩
  have hk0 : 0 ≤ k := by rw [hk]; positivity
  have hk1 : k ≤ 0.0003 := by
    rw [hk]
    have : (log x) ^ 2 ≤ 25 := by nlinarith
    norm_num at this ⊢; linarith
  have e : exp ((4.123e-6 * log x + 2) * log x + 1.64e-4) = x ^ 2 * exp k := by
    have : (4.123e-6 * log x + 2) * log x + 1.64e-4 = log x + log x + k := by rw [hk]; ring
    rw [this, exp_add, exp_add, exp_log hx]; ring
  have hek0 : 1 ≤ exp k := one_le_exp hk0
  have hek1 : exp k ≤ 1.0004 := by
    have := exp_le_quad hk0 (by norm_num at hk1 ⊢; linarith)
    norm_num at hk1 ⊢
    nlinarith
  rw [e]
  have hxl : W * (1 + W) ≤ x := by rw [← h]; nlinarith
  have hxu : x ≤ W * (1 + W + W ^ 2) := by rw [← h]; nlinarith
  have hx2 : 0 < x ^ 2 := by positivity
  have hxe : x ^ 2 * exp k ≤ 1.0004 * x ^ 2 := by nlinarith
  have hxe2 : x ^ 2 ≤ x ^ 2 * exp k := by nlinarith
  rw [abs_le]
  constructor
  · -- lower
    have h3 : x ^ 2 ≤ (W * (1 + W + W ^ 2)) ^ 2 := pow_le_pow_left₀ hx.le hxu 2
    have h4 : (1 + W + W ^ 2) ^ 2 ≤ 1.22 := by
      have : 1 + W + W ^ 2 ≤ 1.1005 := by norm_num at hWu ⊢; nlinarith
      calc (1 + W + W ^ 2) ^ 2 ≤ 1.1005 ^ 2 := pow_le_pow_left₀ (by positivity) this 2
        _ ≤ 1.22 := by norm_num
    have h5 : x ^ 2 ≤ 1.22 * W ^ 2 := by
      calc x ^ 2 ≤ W ^ 2 * (1 + W + W ^ 2) ^ 2 := by rw [← mul_pow]; exact h3
        _ ≤ W ^ 2 * 1.22 := by gcongr
        _ = 1.22 * W ^ 2 := by ring
    have h6 : W ^ 2 ≤ 0.092 * W := by nlinarith
    norm_num at h5 h6 hxe ⊢
    nlinarith
  · -- upper : x - x² ≤ W
    have h7 : exp (-W) * x = W := by rw [← h, mul_comm, mul_assoc, ← exp_add]; simp
    have h8 := one_sub_le_exp_neg W
    have hWx : W ≤ x := by nlinarith
    -- W ≥ (1 - W) x ≥ x - x²
    have h9 : (1 - W) * x ≤ W := by rw [← h7]; nlinarith
    nlinarith

theorem fast_large {x W : ℝ} (hl : 10 ^ 10 ≤ x) (h : W * exp W = x) :
    |0.996 * log x - 3.47 - W| ≤ 0.03 * W := by
  have hx : (0 : ℝ) < x := lt_of_lt_of_le (by norm_num) hl
  have hW0 : 0 < W := by
    by_contra hc; push Not at hc
    nlinarith [exp_pos W]
  have hL : log x = W + log W := by
    rw [← h, log_mul hW0.ne' (exp_pos W).ne', log_exp]; ring
  have h2l := log_two_gt_d9
  have h2u := log_two_lt_d9
  have h5l := log_five_gt_d9
  have h5u := log_five_lt_d9
  have e20 : log 20 = 2 * log 2 + log 5 := by
    have : (20 : ℝ) = 2 ^ 2 * 5 := by norm_num
    rw [this, log_mul (by norm_num) (by norm_num), log_pow]; norm_num
  have e10 : log (10 ^ 10) = 10 * (log 2 + log 5) := by
    have : (10 : ℝ) = 2 * 5 := by norm_num
    rw [log_pow, this, log_mul (by norm_num) (by norm_num)]; norm_num
  have hLx : log (10 ^ 10) ≤ log x := log_le_log (by norm_num) hl
  have hW20 : 20 ≤ W := by
    by_contra hc; push Not at hc
    have := log_le_log hW0 hc.le
    rw [e20] at this
    rw [e10, hL] at hLx
    norm_num at h2l h2u h5l h5u
    linarith
  rw [hL, abs_le]
  have hlow : log 20 ≤ log W := log_le_log (by norm_num) hW20
  rw [e20] at hlow
  have hup := log_le_sub_one_of_pos (by positivity : 0 < W / 32)
  have e32 : log 32 = 5 * log 2 := by
    have : (32 : ℝ) = 2 ^ 5 := by norm_num
    rw [this, log_pow]; norm_num
  rw [log_div hW0.ne' (by norm_num), e32] at hup
  norm_num at h2l h2u h5l h5u hup ⊢
  constructor <;> linarith

end Gunns.Lambert
