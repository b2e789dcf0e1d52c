import Mathlib.Analysis.SpecialFunctions.Pow.Deriv
import Mathlib.Tactic.Linarith
import Mathlib.Tactic.Ring
import Mathlib.Tactic.FieldSimp
import Mathlib.Tactic.NormNum
import Verif.Elect.PowerResistor

/-!
# C106: the resistor with a power function
-/

set_option linter.unusedSectionVars false

namespace Gunns.Props

open Gunns Gunns.PowRes
open Gunns.Interp (limitRange)

/-- The resistance with the blockage: a blockage leaves its complement of the conductance. -/
noncomputable def c106resistance (l : Link) : ℝ := match l.block with
  | some b => l.resistance / (1 - b)
  | none => l.resistance

/-- A link within all limits: the exponent is accepted, the resistance with and without blockage is within what a conductance can be, and the least potential
of the linearization is positive. -/
def c106normal (l : Link) : Prop := l.Valid ∧ 1 / 10 ^ 15 ≤ l.resistance ∧ c106resistance l ≤ 10 ^ 15 ∧ 0 < l.least ∧ ∀ b, l.block = some b → 0 ≤ b ∧ b < 1

/-- The size of the current of the power function: `R i ^ x = d`. -/
noncomputable def c106current (l : Link) (d : ℝ) : ℝ := (d / c106resistance l) ^ l.exponent⁻¹

private theorem res_pos {l : Link} (h : c106normal l) : 0 < c106resistance l := by
  have hr : 0 < l.resistance := lt_of_lt_of_le (by norm_num) h.2.1
  unfold c106resistance
  cases hb : l.block with
  | none => exact hr
  | some b => exact div_pos hr (by linarith [(h.2.2.2.2 b hb).2])

private theorem cond_eq {l : Link} (h : c106normal l) : conductance l = 1 / c106resistance l := by
  have hm : max l.resistance (1 / condLimit) = l.resistance := max_eq_left (by unfold condLimit; exact h.2.1)
  unfold conductance c106resistance
  simp only
  rw [hm]
  cases hb : l.block with
  | none => rfl
  | some b =>
    have hh := h.2.2.2.2 b hb
    show 1 / l.resistance * limitRange 0 (1 - b) 1 = 1 / (l.resistance / (1 - b))
    unfold limitRange
    rw [min_eq_left (by linarith), max_eq_left (by linarith), one_div_div]
    ring

private theorem exp_eq {l : Link} (h : c106normal l) : 1 / innerLimit (1 / 1000) l.exponent = l.exponent⁻¹ ∧ l.exponent ≠ 0 := by
  have h1 : 1 / 1000 ≤ |l.exponent| := h.1.2
  have : innerLimit (1 / 1000) l.exponent = l.exponent := innerLimit_of_abs_ge h1
  refine ⟨by rw [this, one_div], fun h0 => ?_⟩
  rw [h0, abs_zero] at h1
  norm_num at h1

private theorem on {l : Link} (h : c106normal l) : 1 / condLimit ≤ conductance l := by
  rw [cond_eq h]
  unfold condLimit
  exact one_div_le_one_div_of_le (res_pos h) h.2.2.1

private theorem sys {l : Link} (h : c106normal l) (p0 p1 : ℝ) : system l p0 p1 =
    if l.tangent then (l.exponent⁻¹ * (drop l p0 p1 / c106resistance l) ^ (l.exponent⁻¹ - 1),
      c106current l (drop l p0 p1) - l.exponent⁻¹ * (drop l p0 p1 / c106resistance l) ^ (l.exponent⁻¹ - 1) * drop l p0 p1)
    else (c106current l (drop l p0 p1) / drop l p0 p1, 0) := by
  have e : system l p0 p1 = if l.tangent then (1 / innerLimit (1 / 1000) l.exponent * (drop l p0 p1 * conductance l) ^ (1 / innerLimit (1 / 1000) l.exponent - 1),
      (drop l p0 p1 * conductance l) ^ (1 / innerLimit (1 / 1000) l.exponent) - 1 / innerLimit (1 / 1000) l.exponent * (drop l p0 p1 * conductance l) ^ (1 / innerLimit (1 / 1000) l.exponent - 1) * drop l p0 p1)
    else ((drop l p0 p1 * conductance l) ^ (1 / innerLimit (1 / 1000) l.exponent) / drop l p0 p1, 0) := if_pos (on h)
  rw [e, (exp_eq h).1, cond_eq h, mul_one_div]
  rfl

private theorem drop_pos {l : Link} (h : c106normal l) (p0 p1 : ℝ) : 0 < drop l p0 p1 := lt_of_lt_of_le h.2.2.2.1 (le_max_right _ _)

private theorem flows (s : ℝ × ℝ) (p0 p1 : ℝ) (hf : max p0 p1 * (100 * dblEps) ≤ |p0 - p1|) : flux s p0 p1 = (p0 - p1) * s.1 + s.2 := by
  unfold flux
  rw [if_neg (not_lt.mpr hf)]
  rfl

/-- The current of the power function is just that. -/
theorem c106_current {l : Link} (h : c106normal l) {d : ℝ} (hd : 0 < d) : 0 < c106current l d ∧ c106resistance l * c106current l d ^ l.exponent = d := by
  have hp : 0 < d / c106resistance l := div_pos hd (res_pos h)
  unfold c106current
  refine ⟨Real.rpow_pos_of_pos hp _, ?_⟩
  rw [Real.rpow_inv_rpow hp.le (exp_eq h).2]
  have := (res_pos h).ne'
  field_simp

/-- In the default mode the link has the current of the power function, down the potential, at the potentials of its linearization: so that potentials which the
steps no longer change are a solution. -/
theorem c106_default {l : Link} (h : c106normal l) (ht : l.tangent = false) (p0 p1 : ℝ) (hl : l.least ≤ |p0 - p1|) (hf : max p0 p1 * (100 * dblEps) ≤ |p0 - p1|) :
    let i := flux (system l p0 p1) p0 p1
    c106resistance l * |i| ^ l.exponent = |p0 - p1| ∧ (0 < i ↔ p1 < p0) ∧ (i < 0 ↔ p0 < p1) := by
  intro i
  have hd : drop l p0 p1 = |p0 - p1| := max_eq_left hl
  have hpos : 0 < |p0 - p1| := lt_of_lt_of_le h.2.2.2.1 hl
  obtain ⟨c1, c2⟩ := c106_current h hpos
  have ei : i = (p0 - p1) * (c106current l |p0 - p1| / |p0 - p1|) := by
    show flux (system l p0 p1) p0 p1 = _
    rw [flows _ _ _ hf, sys h, ht, hd]
    simp
  have q : 0 < c106current l |p0 - p1| / |p0 - p1| := div_pos c1 hpos
  have ea : |i| = c106current l |p0 - p1| := by
    rw [ei, abs_mul, abs_of_pos q]
    field_simp
  refine ⟨by rw [ea]; exact c2, ?_, ?_⟩
  · rw [ei, mul_pos_iff_of_pos_right q, sub_pos]
  · rw [ei, mul_neg_iff]
    exact ⟨fun hc => by
      rcases hc with hc | hc
      · exact absurd hc.2 (not_lt.mpr q.le)
      · linarith [hc.1], fun hc => Or.inr ⟨by linarith, q⟩⟩

/-- Under the least potential of the linearization the default mode is the line from the origin to the curve at that potential. -/
theorem c106_small {l : Link} (h : c106normal l) (ht : l.tangent = false) (p0 p1 : ℝ) (hl : |p0 - p1| ≤ l.least) (hf : max p0 p1 * (100 * dblEps) ≤ |p0 - p1|) :
    flux (system l p0 p1) p0 p1 * l.least = (p0 - p1) * c106current l l.least := by
  have hd : drop l p0 p1 = l.least := max_eq_right hl
  have := h.2.2.2.1.ne'
  rw [flows _ _ _ hf, sys h, ht, hd]
  simp only [Bool.false_eq_true, if_false, add_zero]
  field_simp

/-- In the tangent mode too the line goes through the curve at the potential of the linearization, for a current forward. -/
theorem c106_tangent_point {l : Link} (h : c106normal l) (ht : l.tangent = true) (p0 p1 : ℝ) (hp : p1 < p0) (hl : l.least ≤ |p0 - p1|)
    (hf : max p0 p1 * (100 * dblEps) ≤ |p0 - p1|) : flux (system l p0 p1) p0 p1 = c106current l (p0 - p1) := by
  have ha : |p0 - p1| = p0 - p1 := abs_of_pos (by linarith)
  have hd : drop l p0 p1 = p0 - p1 := by rw [← ha]; exact max_eq_left hl
  rw [flows _ _ _ hf, sys h, ht, hd]
  simp only [if_true]
  ring

/-- Its slope however is that of the curve times the resistance: the line is a tangent only for a resistance of one. -/
theorem c106_tangent_slope {l : Link} (h : c106normal l) (ht : l.tangent = true) (p0 p1 : ℝ) :
    HasDerivAt (c106current l) ((system l p0 p1).1 / c106resistance l) (drop l p0 p1)
      ∧ ∀ a, HasDerivAt (c106current l) a (drop l p0 p1) → ((system l p0 p1).1 = a ↔ c106resistance l = 1) := by
  have hp : 0 < drop l p0 p1 / c106resistance l := div_pos (drop_pos h p0 p1) (res_pos h)
  have hr := (res_pos h).ne'
  have e1 : (system l p0 p1).1 = l.exponent⁻¹ * (drop l p0 p1 / c106resistance l) ^ (l.exponent⁻¹ - 1) := by
    rw [sys h, ht]
    rfl
  have hd : HasDerivAt (c106current l) ((system l p0 p1).1 / c106resistance l) (drop l p0 p1) := by
    have h1 : HasDerivAt (fun d : ℝ => d / c106resistance l) (1 / c106resistance l) (drop l p0 p1) := (hasDerivAt_id _).div_const _
    have h2 := h1.rpow_const (p := l.exponent⁻¹) (Or.inl hp.ne')
    refine h2.congr_deriv ?_
    rw [e1]
    ring
  refine ⟨hd, fun a ha => ?_⟩
  have hu := ha.unique hd
  have hz : (system l p0 p1).1 ≠ 0 := by
    rw [e1]
    exact mul_ne_zero (inv_ne_zero (exp_eq h).2) (Real.rpow_pos_of_pos hp _).ne'
  rw [hu, eq_div_iff hr]
  exact ⟨fun hc => mul_left_cancel₀ hz (hc.trans (mul_one _).symm), fun hc => by rw [hc, mul_one]⟩

/-- And for a current backward its source has the wrong sign: the flux is the current times `1 - 2 R / x`, so that with a resistance of less than half the exponent
it goes up the potential. -/
theorem c106_tangent_backward {l : Link} (h : c106normal l) (ht : l.tangent = true) (p0 p1 : ℝ) (hp : p0 < p1) (hl : l.least ≤ |p0 - p1|)
    (hf : max p0 p1 * (100 * dblEps) ≤ |p0 - p1|) :
    flux (system l p0 p1) p0 p1 = c106current l (p1 - p0) * (1 - 2 * c106resistance l / l.exponent)
      ∧ (2 * c106resistance l < l.exponent → 0 < flux (system l p0 p1) p0 p1) := by
  have ha : |p0 - p1| = p1 - p0 := by rw [abs_of_neg (by linarith)]; ring
  have hd : drop l p0 p1 = p1 - p0 := by rw [← ha]; exact max_eq_left hl
  have hq : 0 < (p1 - p0) / c106resistance l := div_pos (by linarith) (res_pos h)
  have hr := (res_pos h).ne'
  have e2 : ((p1 - p0) / c106resistance l) ^ (l.exponent⁻¹ - 1) = c106current l (p1 - p0) / ((p1 - p0) / c106resistance l) := by
    rw [Real.rpow_sub hq, Real.rpow_one]
    rfl
  have hpp : p1 - p0 ≠ 0 := by linarith
  have e : flux (system l p0 p1) p0 p1 = c106current l (p1 - p0) * (1 - 2 * c106resistance l / l.exponent) := by
    rw [flows _ _ _ hf, sys h, ht, hd]
    simp only [if_true]
    rw [e2]
    have hx := (exp_eq h).2
    field_simp
    ring
  refine ⟨e, fun hc => ?_⟩
  have c1 := (c106_current h (show 0 < p1 - p0 by linarith)).1
  have hx : 0 < l.exponent := by linarith [res_pos h]
  rw [e]
  exact mul_pos c1 (by rw [sub_pos, div_lt_one hx]; exact hc)

/-- A full blockage leaves no current, and the matrix and the sources take from the one port what they give to the other. -/
theorem c106_link (l : Link) (p0 p1 : ℝ) :
    (∀ b, l.block = some b → 1 ≤ b → system l p0 p1 = (0, 0) ∧ flux (system l p0 p1) p0 p1 = 0)
      ∧ (∀ a w q0 q1 : ℝ, matrix a 0 0 * q0 + matrix a 0 1 * q1 - source w 0 = (q0 - q1) * a + w
          ∧ matrix a 1 0 * q0 + matrix a 1 1 * q1 - source w 1 = -((q0 - q1) * a + w)) := by
  refine ⟨fun b hb h1 => ?_, fun a w q0 q1 => ?_⟩
  · have hg : conductance l = 0 := by
      unfold conductance
      simp only
      rw [hb]
      show _ * limitRange 0 (1 - b) 1 = 0
      unfold limitRange
      rw [max_eq_right ((min_le_left _ _).trans (by linarith)), mul_zero]
    have e : system l p0 p1 = (0, 0) := if_neg (by rw [hg]; unfold condLimit; norm_num)
    refine ⟨e, ?_⟩
    rw [e]
    unfold flux matrix source
    simp
  · unfold matrix source
    constructor <;> simp <;> ring

/-- A link in the range of the theorems, with a blockage. -/
example : c106normal ⟨1 / 2, 2, true, 1, some (1 / 2)⟩ := by
  have hr : c106resistance ⟨1 / 2, 2, true, 1, some (1 / 2)⟩ = 1 := by unfold c106resistance; norm_num
  refine ⟨⟨?_, ?_⟩, ?_, ?_, ?_, ?_⟩
  · show (dblEps : ℝ) ≤ 1 / 2
    unfold dblEps; norm_num
  · show (1 : ℝ) / 1000 ≤ |2|
    norm_num
  · show (1 : ℝ) / 10 ^ 15 ≤ 1 / 2
    norm_num
  · rw [hr]; norm_num
  · show (0 : ℝ) < 1
    norm_num
  · intro b hb
    have : b = 1 / 2 := (Option.some.inj hb).symm
    rw [this]
    norm_num

end Gunns.Props
