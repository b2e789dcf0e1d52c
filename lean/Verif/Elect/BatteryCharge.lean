import Verif.Elect.BatteryLemmas

/-!
# Charge balance of the battery, and thermal runaway
-/

namespace Gunns.Elect

open Gunns.Elements Gunns.Elect.Spec

set_option linter.unusedSectionVars false

variable {K : Type _} [Field K] [LinearOrder K] [IsStrictOrderedRing K]

/-- Without the battery's thermal runaway malfunction, present or just gone, a step leaves the cells
alone. -/
theorem Battery.sequenceRunaway_idle {b : Battery K} (hf : b.runFlag = false) (ht : b.runTimer ≤ 0)
    (dt : K) : (b.sequenceRunaway dt).cells = b.cells := by
  unfold Battery.sequenceRunaway
  simp only [hf, if_false, reduceCtorEq]
  rw [if_neg (not_lt.2 ht)]

/-- Number of cells that contribute. -/
def contributing (cells : List (Cell K)) : Nat := (cells.filter fun c => c.effSoc > dblEps).length

theorem Battery.updateCells_eq (voc : K → K) (flux dt : K) (b : Battery K) :
    (b.updateCells voc flux dt).cells =
      if contributing b.cells > 0 then
        b.cells.map (Cell.updateSoc voc (flux / (contributing b.cells : Nat)) dt)
      else b.cells := by
  unfold Battery.updateCells contributing
  dsimp only
  rw [foldl_count (fun c : Cell K => c.effSoc > dblEps), zero_add]
  split_ifs <;> rfl

theorem Battery.step_cells (voc : K → K) (blk : Option K) (dt flux : K) (b : Battery K) :
    (b.op voc (.step blk dt flux)).cells =
      if contributing (b.sequenceRunaway dt).cells > 0 then
        (b.sequenceRunaway dt).cells.map
          (Cell.updateSoc voc (flux / (contributing (b.sequenceRunaway dt).cells : Nat)) dt)
      else (b.sequenceRunaway dt).cells :=
  Battery.updateCells_eq voc flux dt (b.step voc blk dt)

theorem contributing_eq_zero {cells : List (Cell K)} (h : ∀ c ∈ cells, c.effSoc ≤ dblEps) :
    contributing cells = 0 := by
  unfold contributing
  rw [List.length_eq_zero_iff, List.filter_eq_nil_iff]
  intro c hc
  simpa using h c hc

/-- The sum of the changes of the cells. -/
theorem stored_map_sub (f : Cell K → Cell K) (d : Cell K → K) (cells : List (Cell K))
    (h : ∀ c ∈ cells, charge (f c) = charge c - d c) :
    stored (cells.map f) = stored cells - (cells.map d).sum := by
  unfold stored
  induction cells with
  | nil => simp
  | cons c l ih =>
    simp only [List.map_cons, List.sum_cons]
    rw [h c (List.mem_cons_self ..), ih (fun x hx => h x (List.mem_cons_of_mem _ hx))]
    ring

theorem stored_map_le (f : Cell K → Cell K) (d : Cell K → K) (cells : List (Cell K))
    (h : ∀ c ∈ cells, charge (f c) ≤ charge c + d c) :
    stored (cells.map f) ≤ stored cells + (cells.map d).sum := by
  unfold stored
  induction cells with
  | nil => simp
  | cons c l ih =>
    simp only [List.map_cons, List.sum_cons]
    have h1 := h c (List.mem_cons_self ..)
    have h2 := ih (fun x hx => h x (List.mem_cons_of_mem _ hx))
    linarith

theorem sum_indicator (a : K) (cells : List (Cell K)) :
    (cells.map fun c => if c.effSoc > dblEps then a else 0).sum = (contributing cells : K) * a := by
  unfold contributing
  induction cells with
  | nil => simp
  | cons c l ih =>
    rw [List.map_cons, List.sum_cons, ih]
    by_cases h : c.effSoc > dblEps
    · rw [if_pos h, List.filter_cons_of_pos (by simpa using h), List.length_cons]
      push_cast
      ring
    · rw [if_neg h, List.filter_cons_of_neg (by simpa using h), zero_add]

theorem charge_after (voc : K → K) {current dt : K} {c : Cell K} (h : Healthy c)
    (h0 : 0 ≤ socAfter current dt c) (h1 : socAfter current dt c ≤ 1) :
    charge (c.updateSoc voc current dt) = charge c - current * dt := by
  unfold charge
  rw [cap_updateSoc, Cell.updateSoc_healthy voc current dt h, limitRange_of_mem h0 h1]
  have hc : Spec.cap c ≠ 0 := (lt_trans dblEps_pos h.2.2.2).ne'
  unfold socAfter
  field_simp

/-- Giving charge, a healthy cell loses at most what it gives. -/
theorem charge_after_discharge (voc : K → K) {current dt : K} {c : Cell K} (h : Healthy c)
    (h0 : 0 ≤ c.soc) (h1 : c.soc ≤ 1) (hp : 0 ≤ current * dt) :
    charge c - current * dt ≤ charge (c.updateSoc voc current dt) ∧
      charge (c.updateSoc voc current dt) ≤ charge c := by
  have hc : 0 < Spec.cap c := lt_trans dblEps_pos h.2.2.2
  have hd : 0 ≤ current * dt / (3600 * Spec.cap c) := div_nonneg hp (by positivity)
  unfold charge
  rw [cap_updateSoc, Cell.updateSoc_healthy voc current dt h]
  have hle : socAfter current dt c ≤ c.soc := by unfold socAfter; linarith
  have e1 : socAfter current dt c ≤ limitRange 0 (socAfter current dt c) 1 := by
    unfold limitRange
    rw [min_eq_left (hle.trans h1)]
    exact le_max_left _ _
  have e2 : limitRange 0 (socAfter current dt c) 1 ≤ c.soc := by
    have := limitRange_mono hle
    rwa [limitRange_of_mem h0 h1] at this
  have e3 : 3600 * (Spec.cap c * socAfter current dt c) = 3600 * (Spec.cap c * c.soc) - current * dt := by
    unfold socAfter
    field_simp
  constructor
  · rw [← e3]
    have := mul_le_mul_of_nonneg_left e1 hc.le
    linarith
  · have := mul_le_mul_of_nonneg_left e2 hc.le
    linarith

/-- Taking charge, a healthy cell gains at most what it takes. -/
theorem charge_after_charge (voc : K → K) {current dt : K} {c : Cell K} (h : Healthy c)
    (h0 : 0 ≤ c.soc) (h1 : c.soc ≤ 1) (hp : current * dt ≤ 0) :
    charge c ≤ charge (c.updateSoc voc current dt) ∧
      charge (c.updateSoc voc current dt) ≤ charge c - current * dt := by
  have hc : 0 < Spec.cap c := lt_trans dblEps_pos h.2.2.2
  have hd : current * dt / (3600 * Spec.cap c) ≤ 0 := div_nonpos_of_nonpos_of_nonneg hp (by positivity)
  unfold charge
  rw [cap_updateSoc, Cell.updateSoc_healthy voc current dt h]
  have hle : c.soc ≤ socAfter current dt c := by unfold socAfter; linarith
  have e1 : limitRange 0 (socAfter current dt c) 1 ≤ socAfter current dt c := by
    unfold limitRange
    exact max_le (min_le_left _ _) (h0.trans hle)
  have e2 : c.soc ≤ limitRange 0 (socAfter current dt c) 1 := by
    have := limitRange_mono hle
    rwa [limitRange_of_mem h0 h1] at this
  have e3 : 3600 * (Spec.cap c * socAfter current dt c) = 3600 * (Spec.cap c * c.soc) - current * dt := by
    unfold socAfter
    field_simp
  constructor
  · have := mul_le_mul_of_nonneg_left e2 hc.le
    linarith
  · rw [← e3]
    have := mul_le_mul_of_nonneg_left e1 hc.le
    linarith

theorem charge_open (voc : K → K) (current dt : K) {c : Cell K} (h : Disconnected c) :
    charge (c.updateSoc voc current dt) = charge c := by
  unfold charge
  rw [cap_updateSoc, Cell.updateSoc_open voc current dt h.1 h.2]

theorem effSoc_open {c : Cell K} (h : Disconnected c) : c.effSoc = 0 := by
  unfold Cell.effSoc
  rw [if_pos (Or.inl h.1)]

theorem effSoc_healthy {c : Cell K} (h : Healthy c) : c.effSoc = c.soc := by
  unfold Cell.effSoc
  rw [if_neg (by rw [h.1, h.2.1]; simp)]

/-! ## Thermal runaway of one cell -/

/-- A cell that is only in thermal runaway. -/
def Burning (c : Cell K) : Prop :=
  c.malfOpen = false ∧ c.malfShort = false ∧ c.runFlag = true ∧ dblEps < Spec.cap c

/-- Power and state of charge of a cell in thermal runaway, as long as some charge is left. -/
theorem Cell.updateSoc_burning (voc : K → K) (current dt : K) {c : Cell K} (h : Burning c)
    (hs : 0 < c.soc) :
    let v := max dblEps (voc c.soc)
    let rate := if c.runPower = 0 then
        2 * (c.soc * Spec.cap c * v * 3600) / max dblEps (c.runDuration * c.runDuration) else c.runRate
    let power := c.runPower + rate * dt
    let soc' := limitRange 0 (c.soc - (current + power / v) * dt / Spec.cap c / 3600) 1
    c.updateSoc voc current dt =
      { c with
        soc := soc'
        runPower := if soc' = 0 then 0 else power
        runRate := if soc' = 0 then 0 else rate } := by
  obtain ⟨ho, hsh, hr, hc⟩ := h
  unfold Cell.updateSoc Cell.runaway
  unfold Spec.cap at hc ⊢
  simp only [ho, hsh, hr, true_and, if_false, reduceCtorEq, if_true]
  rw [if_pos hc, if_pos hs]
  unfold secPerHr
  dsimp only
  generalize limitRange 0 _ (1 : K) = x
  by_cases hx : x = 0
  · subst hx
    simp
  · rw [if_neg (by rintro (e | e); exacts [hx e.symm, by simp at e])]
    simp [hx]

end Gunns.Elect
