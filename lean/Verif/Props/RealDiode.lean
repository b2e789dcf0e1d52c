import Mathlib.Tactic.Linarith
import Mathlib.Tactic.Ring
import Mathlib.Tactic.FieldSimp
import Mathlib.Tactic.NormNum
import Verif.Elect.RealDiode

/-!
# C108: the diode with a voltage drop
-/

set_option linter.unusedSectionVars false

namespace Gunns.Props

open Gunns Gunns.Diode
open Gunns.Elements (systemConductance limitRange conductanceLimit)

variable {K : Type _} [Field K] [LinearOrder K] [IsStrictOrderedRing K]

/-- A conductivity with the share that a blockage leaves, within what a conductance can be. -/
def c108left (c : Cfg K) (g : K) : K := max 0 (min (10 ^ 15) (match c.block with
  | some b => (1 - b) * g
  | none => g))

private theorem left_eq (c : Cfg K) (g : K) : systemConductance g c.block = c108left c g := by
  unfold systemConductance c108left limitRange conductanceLimit
  rw [max_comm 0, min_comm (10 ^ 15)]
  cases c.block with
  | none => rfl
  | some b => simp only [mul_comm g]

private theorem left_nonneg (c : Cfg K) (g : K) : 0 ≤ c108left c g := le_max_left _ _

private theorem flux_eq (c : Cfg K) (r : Bool) (v : K) : flux c r v =
    if r then v * c108left c c.backward else (v - c.junction) * c108left c c.forward := by
  unfold flux entries state
  cases r
  · simp only [Bool.false_eq_true, if_false, left_eq]
    ring
  · simp only [if_true, left_eq]
    ring

/-- A solution that the diode accepts is on its curve: under the drop of the junction it conducts with its reverse conductivity, from the drop on with its
forward one what the potential is more than the drop. The bias it leaves is that of the curve, accepted or not. -/
theorem c108_curve (c : Cfg K) (r : Bool) (v : K) :
    ((confirm c r v).1 = true ↔ (r = true ↔ v < c.junction))
      ∧ ((confirm c r v).2 = true ↔ v < c.junction)
      ∧ ((confirm c r v).1 = true → flux c r v =
          if v < c.junction then c108left c c.backward * v else c108left c c.forward * (v - c.junction)) := by
  refine ⟨?_, ?_, ?_⟩
  · unfold confirm bias
    by_cases h : v < c.junction <;> cases r <;> simp [h]
  · unfold confirm bias
    simp
  · intro h
    rw [flux_eq]
    unfold confirm bias at h
    by_cases hv : v < c.junction <;> cases r <;> simp [hv] at h ⊢ <;> ring

/-- An accepted diode only takes power, has no current backward from the junction's drop on, and under it no more forward than its reverse conductivity allows
at the drop. -/
theorem c108_passive {c : Cfg K} (hc : c.Valid) {r : Bool} {v : K} (h : (confirm c r v).1 = true) :
    0 ≤ flux c r v * v ∧ (c.junction ≤ v → 0 ≤ flux c r v) ∧ (v < c.junction → flux c r v ≤ c108left c c.backward * c.junction) := by
  have hf := (c108_curve c r v).2.2 h
  have hl := left_nonneg c c.backward
  have hl' := left_nonneg c c.forward
  have hj : 0 ≤ c.junction := hc.2.1
  by_cases hv : v < c.junction
  · rw [if_pos hv] at hf
    rw [hf]
    refine ⟨?_, fun hn => absurd hv (not_lt.mpr hn), fun _ => mul_le_mul_of_nonneg_left hv.le hl⟩
    have : c108left c c.backward * v * v = c108left c c.backward * (v * v) := by ring
    rw [this]
    exact mul_nonneg hl (mul_self_nonneg v)
  · rw [if_neg hv] at hf
    have hv' := not_lt.mp hv
    rw [hf]
    have : 0 ≤ c108left c c.forward * (v - c.junction) := mul_nonneg hl' (by linarith)
    exact ⟨mul_nonneg this (by linarith), fun _ => this, fun hn => absurd hn hv⟩

/-- A potential across the diode that solves the circuit with a source of the potential `e` behind the conductance `gs`. -/
def c108solves (c : Cfg K) (gs e : K) (r : Bool) (v : K) : Prop := gs * (e - v) = flux c r v

/-- In such a circuit there is one solution for either bias. -/
theorem c108_solution (c : Cfg K) {gs : K} (hg : 0 < gs) (e : K) (r : Bool) : ∃! v, c108solves c gs e r v := by
  unfold c108solves
  cases r
  · have hp : 0 < gs + c108left c c.forward := by linarith [left_nonneg c c.forward]
    refine ⟨(gs * e + c108left c c.forward * c.junction) / (gs + c108left c c.forward), ?_, fun v hv => ?_⟩
    · show _ = _
      rw [flux_eq]
      simp only [Bool.false_eq_true, if_false]
      have := hp.ne'
      field_simp
      ring
    · have hv : gs * (e - v) = flux c false v := hv
      rw [flux_eq] at hv
      simp only [Bool.false_eq_true, if_false] at hv
      rw [eq_div_iff hp.ne']
      linarith
  · have hp : 0 < gs + c108left c c.backward := by linarith [left_nonneg c c.backward]
    refine ⟨(gs * e) / (gs + c108left c c.backward), ?_, fun v hv => ?_⟩
    · show _ = _
      rw [flux_eq]
      simp only [if_true]
      have := hp.ne'
      field_simp
      ring
    · have hv : gs * (e - v) = flux c true v := hv
      rw [flux_eq] at hv
      simp only [if_true] at hv
      rw [eq_div_iff hp.ne']
      linarith

/-- What is accepted in the circuit: forward if the source has the drop of the junction, in reverse if the source is under the drop and what the reverse current
at the drop takes over the conductance of the source. -/
theorem c108_accepts (c : Cfg K) {gs : K} (hg : 0 < gs) (e v : K) :
    (c108solves c gs e false v → ((confirm c false v).1 = true ↔ c.junction ≤ e))
      ∧ (c108solves c gs e true v → ((confirm c true v).1 = true ↔ e < c.junction + c108left c c.backward * c.junction / gs)) := by
  have hb := left_nonneg c c.backward
  have hf := left_nonneg c c.forward
  constructor
  · intro h
    rw [(c108_curve c false v).1]
    unfold c108solves at h
    rw [flux_eq] at h
    simp only [Bool.false_eq_true, if_false, false_iff, not_lt] at h ⊢
    have e1 : gs * (e - c.junction) = (gs + c108left c c.forward) * (v - c.junction) := by linarith
    have hp : 0 < gs + c108left c c.forward := by linarith
    constructor
    · intro hv
      have : 0 ≤ gs * (e - c.junction) := by rw [e1]; exact mul_nonneg hp.le (by linarith)
      linarith [nonneg_of_mul_nonneg_right this hg]
    · intro he
      have : 0 ≤ (gs + c108left c c.forward) * (v - c.junction) := by rw [← e1]; exact mul_nonneg hg.le (by linarith)
      linarith [nonneg_of_mul_nonneg_right this hp]
  · intro h
    rw [(c108_curve c true v).1]
    unfold c108solves at h
    rw [flux_eq] at h
    simp only [if_true, true_iff] at h ⊢
    have e1 : gs * e = (gs + c108left c c.backward) * v := by linarith
    have hp : 0 < gs + c108left c c.backward := by linarith
    have e2 : c.junction + c108left c c.backward * c.junction / gs = (gs + c108left c c.backward) * c.junction / gs := by
      have := hg.ne'
      field_simp
    rw [e2, lt_div_iff₀ hg, mul_comm e, e1, mul_lt_mul_iff_right₀ hp]

/-- In the circuit the diode rejects at most once: whatever the bias was, the solution with the bias that a rejection leaves is accepted. -/
theorem c108_settles {c : Cfg K} (hc : c.Valid) {gs : K} (hg : 0 < gs) (e : K) (r : Bool) {v w : K} (hv : c108solves c gs e r v)
    (hn : (confirm c r v).1 = false) (hw : c108solves c gs e (confirm c r v).2 w) : (confirm c (confirm c r v).2 w).1 = true := by
  have hb := left_nonneg c c.backward
  have hl : 0 ≤ c108left c c.backward * c.junction / gs := div_nonneg (mul_nonneg hb hc.2.1) hg.le
  have h1 := (c108_curve c r v).1
  cases hr : (confirm c r v).2 with
  | false =>
    rw [hr] at hw
    have hv' : ¬ v < c.junction := fun hx => by rw [(c108_curve c r v).2.1.mpr hx] at hr; cases hr
    cases r with
    | false =>
      rw [h1.mpr ⟨fun h => (by cases h), fun h => absurd h hv'⟩] at hn
      cases hn
    | true =>
      rw [((c108_accepts c hg e w).1 hw)]
      by_contra hc'
      have := ((c108_accepts c hg e v).2 hv).mpr (by linarith)
      rw [this] at hn
      cases hn
  | true =>
    rw [hr] at hw
    have hv' : v < c.junction := (c108_curve c r v).2.1.mp hr
    cases r with
    | true =>
      rw [h1.mpr ⟨fun _ => hv', fun _ => rfl⟩] at hn
      cases hn
    | false =>
      rw [((c108_accepts c hg e w).2 hw)]
      by_contra hc'
      have := ((c108_accepts c hg e v).1 hv).mpr (by linarith)
      rw [this] at hn
      cases hn

/-- Between the two limits of the source both solutions are accepted, and the currents differ: which one comes depends on the bias before. There is no such range
just when nothing goes in reverse or the junction has no drop. -/
theorem c108_both (c : Cfg K) {gs : K} (hg : 0 < gs) :
    (∀ e v w, c108solves c gs e false v → c108solves c gs e true w → (confirm c false v).1 = true → (confirm c true w).1 = true → flux c false v < flux c true w)
      ∧ ((∃ e v w, c108solves c gs e false v ∧ c108solves c gs e true w ∧ (confirm c false v).1 = true ∧ (confirm c true w).1 = true)
          ↔ 0 < c108left c c.backward ∧ 0 < c.junction) := by
  have hb := left_nonneg c c.backward
  refine ⟨fun e v w hv hw av aw => ?_, ?_⟩
  · rw [← hv, ← hw]
    have h1 := (c108_curve c false v).1.mp av
    have h2 := (c108_curve c true w).1.mp aw
    have h1' : c.junction ≤ v := not_lt.mp fun hx => by have := h1.mpr hx; cases this
    have h2' : w < c.junction := h2.mp rfl
    exact mul_lt_mul_of_pos_left (by linarith) hg
  · constructor
    · rintro ⟨e, v, w, hv, hw, av, aw⟩
      have h1 := ((c108_accepts c hg e v).1 hv).mp av
      have h2 := ((c108_accepts c hg e w).2 hw).mp aw
      have h3 : 0 < c108left c c.backward * c.junction / gs := by linarith
      have h4 : 0 < c108left c c.backward * c.junction := by
        by_contra hx
        exact absurd h3 (not_lt.mpr (div_nonpos_of_nonpos_of_nonneg (not_lt.mp hx) hg.le))
      rcases hb.lt_or_eq with hb' | hb'
      · exact ⟨hb', pos_of_mul_pos_right h4 hb⟩
      · rw [← hb', zero_mul] at h4
        exact absurd h4 (lt_irrefl _)
    · rintro ⟨h1, h2⟩
      obtain ⟨v, hv, -⟩ := c108_solution c hg c.junction false
      obtain ⟨w, hw, -⟩ := c108_solution c hg c.junction true
      refine ⟨c.junction, v, w, hv, hw, ((c108_accepts c hg _ v).1 hv).mpr (le_refl _), ((c108_accepts c hg _ w).2 hw).mpr ?_⟩
      have : 0 < c108left c c.backward * c.junction / gs := div_pos (mul_pos h1 h2) hg
      linarith

/-- A diode with a leak between an open range of both biases, and its two accepted solutions. -/
private def c108ex : Cfg ℚ := ⟨10, 1 / 2, 1, none⟩

example : c108ex.Valid ∧ c108solves c108ex 1 (5 / 4) true (5 / 6) ∧ (confirm c108ex true (5 / 6)).1 = true
    ∧ c108solves c108ex 1 (5 / 4) false (45 / 44) ∧ (confirm c108ex false (45 / 44)).1 = true
    ∧ c108solves c108ex 1 2 true (4 / 3) ∧ (confirm c108ex true (4 / 3)).1 = false := by
  unfold Cfg.Valid c108solves
  decide +kernel

end Gunns.Props
