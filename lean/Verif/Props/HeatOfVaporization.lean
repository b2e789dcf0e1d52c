import Verif.Fluid.HeatOfVaporization
import Mathlib.Analysis.SpecialFunctions.Log.Basic
import Mathlib.Tactic.Linarith
import Mathlib.Tactic.Ring
import Mathlib.Tactic.FieldSimp
import Mathlib.Tactic.NormNum
import Mathlib.Tactic.Positivity

/-!
# C114: the heat of vaporization falls to nothing at the critical temperature

And for three of the fluids it does not: it is the same at all temperatures.
-/

namespace Gunns.Props

open Gunns.HeatOfVap Gunns.Interp

private theorem c114_range {lo x : ℝ} (h : lo ≤ 1) :
    lo ≤ limitRange lo x 1 ∧ limitRange lo x 1 ≤ 1 :=
  ⟨le_max_right _ _, max_le (min_le_right _ _) h⟩

/-- A fit up to the critical temperature with a positive scale and power is defined and not negative
at every temperature, and is zero exactly from the critical temperature on. -/
theorem c114_sign {a alpha beta lo tc : ℝ} (ha : 0 < a) (hb : 0 < beta) (hlo : lo < 1)
    (htc : 0 < tc) (t : ℝ) :
    ∃ l, HeatOfVap.heat a alpha beta lo 1 tc t = some l ∧ 0 ≤ l ∧ (l = 0 ↔ tc ≤ t) := by
  obtain ⟨h1, h2⟩ := c114_range (lo := lo) (x := t / tc) hlo.le
  have hn : ¬ (1 - limitRange lo (t / tc) 1 < 0 ∨
      (1 - limitRange lo (t / tc) 1 = 0 ∧ beta < 0)) := by
    rintro (h | h)
    · linarith
    · linarith [h.2]
  refine ⟨_, if_neg hn, ?_, ?_⟩
  · have : 0 ≤ 1 - limitRange lo (t / tc) 1 := by linarith
    positivity
  · have hx : limitRange lo (t / tc) 1 = 1 ↔ tc ≤ t := by
      unfold limitRange
      rw [← one_le_div htc]
      constructor
      · intro h
        by_contra hlt
        have hlt := not_le.1 hlt
        rw [min_eq_left hlt.le] at h
        rcases max_choice (t / tc) lo with e | e <;> rw [e] at h <;> linarith
      · intro h
        rw [min_eq_right h, max_eq_left hlo.le]
    rw [← hx]
    have he : a * Real.exp (-alpha * limitRange lo (t / tc) 1) ≠ 0 := by positivity
    rw [mul_eq_zero, or_iff_right he, Real.rpow_eq_zero (by linarith) hb.ne']
    constructor <;> intro h <;> linarith

private theorem c114_curve {alpha beta x y : ℝ} (hb : 0 < beta) (hxy : x ≤ y) (hy : y ≤ 1)
    (hc : 0 ≤ alpha * (1 - x) + beta) :
    Real.exp (-alpha * y) * (1 - y) ^ beta ≤ Real.exp (-alpha * x) * (1 - x) ^ beta := by
  rcases hy.eq_or_lt with rfl | hy
  · rw [sub_self, Real.zero_rpow hb.ne', mul_zero]
    have : 0 ≤ 1 - x := by linarith
    positivity
  · have hx1 : 0 < 1 - x := by linarith
    have hy1 : 0 < 1 - y := by linarith
    rw [Real.rpow_def_of_pos hx1, Real.rpow_def_of_pos hy1, ← Real.exp_add, ← Real.exp_add]
    apply Real.exp_le_exp.2
    have hl := Real.log_le_sub_one_of_pos (div_pos hy1 hx1)
    rw [Real.log_div hy1.ne' hx1.ne'] at hl
    have hq : (1 - y) / (1 - x) - 1 = -((y - x) / (1 - x)) := by
      field_simp
      ring
    rw [hq] at hl
    have h1 := mul_le_mul_of_nonneg_left hl hb.le
    have h2 : 0 ≤ (alpha * (1 - x) + beta) * ((y - x) / (1 - x)) :=
      mul_nonneg hc (div_nonneg (by linarith) hx1.le)
    have h3 : alpha * (1 - x) * ((y - x) / (1 - x)) = alpha * (y - x) := by
      field_simp
    nlinarith

/-- It never rises with the temperature when `alpha (1 - x) + beta` is not negative where the curve
starts. -/
theorem c114_falls {a alpha beta lo tc : ℝ} (ha : 0 < a) (hb : 0 < beta) (hlo : lo < 1)
    (htc : 0 < tc) (hc : 0 ≤ alpha * (1 - lo) + beta) {s t : ℝ} (hst : s ≤ t) :
    ∃ l m, HeatOfVap.heat a alpha beta lo 1 tc s = some l ∧
      HeatOfVap.heat a alpha beta lo 1 tc t = some m ∧ m ≤ l := by
  obtain ⟨l, e1, -, -⟩ := c114_sign (alpha := alpha) ha hb hlo htc s
  obtain ⟨m, e2, -, -⟩ := c114_sign (alpha := alpha) ha hb hlo htc t
  refine ⟨l, m, e1, e2, ?_⟩
  have hval : ∀ u k, HeatOfVap.heat a alpha beta lo 1 tc u = some k →
      k = a * (Real.exp (-alpha * limitRange lo (u / tc) 1) *
        (1 - limitRange lo (u / tc) 1) ^ beta) := by
    intro u k hk
    unfold HeatOfVap.heat HeatOfVap.evaluate at hk
    split at hk
    · cases hk
    · cases hk
      ring
  rw [hval s l e1, hval t m e2]
  apply mul_le_mul_of_nonneg_left _ ha.le
  obtain ⟨h1, h2⟩ := c114_range (lo := lo) (x := s / tc) hlo.le
  apply c114_curve hb
  · exact max_le_max (min_le_min (div_le_div_of_nonneg_right hst htc.le) le_rfl) le_rfl
  · exact (c114_range hlo.le).2
  · rcases le_total 0 alpha with h | h
    · have := mul_nonneg h (show 0 ≤ 1 - limitRange lo (s / tc) 1 by linarith)
      linarith
    · have := mul_le_mul_of_nonpos_left h1 h
      nlinarith

private theorem c114_rows : ∀ r ∈ table, 0 < r.a ∧ 0 < r.beta ∧ 0 < r.tmin ∧ r.tmin < r.tc ∧
    |r.alpha| ≤ 50 ∧ |r.beta| ≤ 50 ∧
    (r.name ≠ "H2" → r.name ≠ "He" → 0 ≤ r.alpha * (1 - r.tmin / r.tc) + r.beta) := by
  decide +kernel

/-- For each of the nineteen fluids with such a fit the heat is defined and not negative at every
temperature, zero exactly from the critical temperature on, and, but for hydrogen and helium, never
rises with the temperature. -/
theorem c114_fluids (r : HeatOfVap.Row) (hr : r ∈ table) (t : ℝ) :
    (∃ l, r.heat t = some l ∧ 0 ≤ l ∧ (l = 0 ↔ (r.tc : ℝ) ≤ t)) ∧
      (r.name ≠ "H2" → r.name ≠ "He" → ∀ s ≤ t, ∃ l m, r.heat s = some l ∧ r.heat t = some m ∧
        m ≤ l) := by
  obtain ⟨k1, k2, k3, k4, -, -, k5⟩ := c114_rows r hr
  have k1' : (0 : ℝ) < r.a := by exact_mod_cast k1
  have k2' : (0 : ℝ) < r.beta := by exact_mod_cast k2
  have k3' : (0 : ℝ) < r.tmin := by exact_mod_cast k3
  have k4' : (r.tmin : ℝ) < r.tc := by exact_mod_cast k4
  have htc : (0 : ℝ) < r.tc := k3'.trans k4'
  have hlo : (r.tmin : ℝ) / r.tc < 1 := by rwa [div_lt_one htc]
  refine ⟨c114_sign k1' k2' hlo htc t, fun n1 n2 s hst => ?_⟩
  refine c114_falls k1' k2' hlo htc ?_ hst
  exact_mod_cast k5 n1 n2

/-- The other three have the limits of their line in kelvin, while the line is asked at the share of
the critical temperature.  So their heat is the same at every temperature up to tens of thousands of
kelvin: that at the lowest limit. -/
theorem c114_constant (r : LinearRow) (hr : r ∈ linearTable) {t : ℝ} (ht : t ≤ 100000) :
    r.heat t = r.a + r.b * r.minX := by
  have hk : ∀ r ∈ linearTable, 0 < r.tc ∧ 100000 ≤ r.minX * r.tc ∧ r.minX ≤ r.maxX := by
    decide +kernel
  obtain ⟨k1, k2, k3⟩ := hk r hr
  have k1' : (0 : ℝ) < r.tc := by exact_mod_cast k1
  have k2' : (100000 : ℝ) ≤ r.minX * r.tc := by exact_mod_cast k2
  have hx : t / r.tc ≤ r.minX := by
    rw [div_le_iff₀ k1']
    linarith
  have hl : limitRange (r.minX : ℝ) (t / r.tc) r.maxX = r.minX := by
    unfold limitRange
    exact max_eq_right ((min_le_left _ _).trans hx)
  show (r.a : ℝ) + r.b * limitRange (r.minX : ℝ) (t / r.tc) r.maxX = _
  rw [hl]

/-- At its critical temperature the heat of nitrogen tetroxide is over 490 kJ/kg, where its line in
kelvin is at nothing. -/
theorem c114_tetroxide : ∃ r ∈ linearTable, r.name = "N2O4" ∧ 490 < r.heat r.tc ∧
    |(r.a + r.b * r.tc : ℝ)| < 1 / 1000 := by
  refine ⟨⟨"N2O4", 1258.40074661114, -2.91735422884232, 261.95, 431.35, 431.35⟩,
    by simp [linearTable], rfl, ?_, ?_⟩
  · rw [c114_constant _ (by simp [linearTable]) (by norm_num)]
    norm_num
  · rw [abs_lt]
    norm_num

example : table.length = 19 ∧ linearTable.length = 3 := by decide +kernel

/-- Water at its critical temperature and at freezing. -/
example : ∃ r ∈ table, r.name = "H2O" ∧ r.heat 647.096 = some 0 ∧ ∃ l, r.heat 273 = some l ∧
    0 < l := by
  have hm : (⟨"H2O", 2899.80, -0.178, 0.406871, 100.0, 647.096⟩ : HeatOfVap.Row) ∈ table := by
    simp [table]
  refine ⟨_, hm, rfl, ?_, ?_⟩
  · obtain ⟨⟨l, e, -, h⟩, -⟩ := c114_fluids _ hm 647.096
    rw [e, h.2 (by norm_num)]
  · obtain ⟨⟨l, e, h0, h⟩, -⟩ := c114_fluids _ hm 273
    refine ⟨l, e, lt_of_le_of_ne h0 (fun h1 => ?_)⟩
    have := h.1 h1.symm
    norm_num at this

end Gunns.Props
