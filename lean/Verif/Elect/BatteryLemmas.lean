import Verif.Elect.BatterySpec
import Mathlib.Tactic.Ring
import Mathlib.Tactic.FieldSimp
import Mathlib.Tactic.Linarith
import Mathlib.Tactic.LinearCombination

/-!
# Lemmas about the battery
-/

namespace Gunns.Elect

open Gunns.Elements Gunns.Elect.Spec

set_option linter.unusedSectionVars false

variable {K : Type _} [Field K] [LinearOrder K] [IsStrictOrderedRing K]

/-! ## Lists -/

theorem forall_modify {α : Type _} {P : α → Prop} {f : α → α} {l : List α} {i : Nat}
    (h : ∀ x ∈ l, P x) (hf : ∀ x, P x → P (f x)) : ∀ x ∈ l.modify i f, P x := by
  intro x hx
  rw [List.mem_iff_getElem?] at hx
  obtain ⟨j, hj⟩ := hx
  rw [List.getElem?_modify] at hj
  cases hl : l[j]? with
  | none => rw [hl] at hj; cases hj
  | some y =>
    rw [hl] at hj
    have hy : P y := h y (List.mem_of_getElem? hl)
    cases hj
    split_ifs
    · exact hf y hy
    · exact hy

theorem foldl_add {α : Type _} (f : α → K) (l : List α) (a : K) :
    l.foldl (fun s c => s + f c) a = a + (l.map f).sum := by
  induction l generalizing a with
  | nil => simp
  | cons c l ih => rw [List.foldl_cons, ih, List.map_cons, List.sum_cons, add_assoc]

theorem foldl_count {α : Type _} (p : α → Prop) [DecidablePred p] (l : List α) (a : Nat) :
    l.foldl (fun n c => if p c then n + 1 else n) a = a + (l.filter p).length := by
  induction l generalizing a with
  | nil => simp
  | cons c l ih =>
    rw [List.foldl_cons, ih]
    by_cases h : p c
    · rw [if_pos h, List.filter_cons_of_pos (by simpa using h), List.length_cons]; omega
    · rw [if_neg h, List.filter_cons_of_neg (by simpa using h)]

/-! ## One cell -/

theorem limitRange_mem (x : K) : 0 ≤ limitRange 0 x 1 ∧ limitRange 0 x 1 ≤ 1 := by
  unfold limitRange
  exact ⟨le_max_right _ _, max_le (min_le_right _ _) zero_le_one⟩

theorem limitRange_of_mem {x : K} (h0 : 0 ≤ x) (h1 : x ≤ 1) : limitRange 0 x 1 = x := by
  unfold limitRange
  rw [min_eq_left h1, max_eq_left h0]

theorem limitRange_of_neg {x : K} (h0 : x ≤ 0) : limitRange 0 x 1 = 0 := by
  unfold limitRange
  rw [min_eq_left (h0.trans zero_le_one), max_eq_right h0]

theorem limitRange_mono {x y : K} (h : x ≤ y) : limitRange 0 x 1 ≤ limitRange 0 y 1 := by
  unfold limitRange
  exact max_le_max (min_le_min h (le_refl _)) (le_refl _)

/-- What stays true of a cell. -/
structure CellInv (c : Cell K) : Prop where
  soc0 : 0 ≤ c.soc
  soc1 : c.soc ≤ 1
  res : 0 ≤ c.resistance
  cap : dblEps ≤ c.maxCapacity

theorem Cell.runaway_soc (voc : K → K) (capacity dt : K) (c : Cell K) :
    (c.runaway voc capacity dt).1.soc = c.soc := by
  unfold Cell.runaway
  split_ifs <;> rfl

theorem Cell.runaway_same (voc : K → K) (capacity dt : K) (c : Cell K) :
    (c.runaway voc capacity dt).1.resistance = c.resistance ∧
    (c.runaway voc capacity dt).1.maxCapacity = c.maxCapacity ∧
    (c.runaway voc capacity dt).1.malfOpen = c.malfOpen ∧
    (c.runaway voc capacity dt).1.malfShort = c.malfShort ∧
    (c.runaway voc capacity dt).1.malfCapFlag = c.malfCapFlag ∧
    (c.runaway voc capacity dt).1.malfCapValue = c.malfCapValue ∧
    (c.runaway voc capacity dt).1.runFlag = c.runFlag ∧
    (c.runaway voc capacity dt).1.runDuration = c.runDuration := by
  unfold Cell.runaway
  split_ifs <;> exact ⟨rfl, rfl, rfl, rfl, rfl, rfl, rfl, rfl⟩

/-- `updateSoc` changes nothing but the state of charge and the runaway power. -/
theorem Cell.updateSoc_same (voc : K → K) (current dt : K) (c : Cell K) :
    (c.updateSoc voc current dt).resistance = c.resistance ∧
    (c.updateSoc voc current dt).maxCapacity = c.maxCapacity ∧
    (c.updateSoc voc current dt).malfOpen = c.malfOpen ∧
    (c.updateSoc voc current dt).malfShort = c.malfShort ∧
    (c.updateSoc voc current dt).malfCapFlag = c.malfCapFlag ∧
    (c.updateSoc voc current dt).malfCapValue = c.malfCapValue ∧
    (c.updateSoc voc current dt).runFlag = c.runFlag ∧
    (c.updateSoc voc current dt).runDuration = c.runDuration := by
  have h := fun capacity => Cell.runaway_same voc capacity dt c
  unfold Cell.updateSoc
  dsimp only
  split_ifs <;> first | exact h _ | exact ⟨rfl, rfl, rfl, rfl, rfl, rfl, rfl, rfl⟩

theorem Cell.updateSoc_range (voc : K → K) (current dt : K) (c : Cell K) (h0 : 0 ≤ c.soc)
    (h1 : c.soc ≤ 1) :
    0 ≤ (c.updateSoc voc current dt).soc ∧ (c.updateSoc voc current dt).soc ≤ 1 := by
  unfold Cell.updateSoc
  dsimp only
  split_ifs <;> first | exact limitRange_mem _ | exact ⟨h0, h1⟩ | exact ⟨le_refl _, zero_le_one⟩

theorem CellInv.updateSoc {c : Cell K} (h : CellInv c) (voc : K → K) (current dt : K) :
    CellInv (c.updateSoc voc current dt) := by
  obtain ⟨h0, h1⟩ := Cell.updateSoc_range voc current dt c h.soc0 h.soc1
  obtain ⟨e1, e2, _⟩ := Cell.updateSoc_same voc current dt c
  exact ⟨h0, h1, e1 ▸ h.res, e2 ▸ h.cap⟩

/-- A healthy cell integrates the current. -/
theorem Cell.updateSoc_healthy (voc : K → K) (current dt : K) {c : Cell K} (h : Healthy c) :
    (c.updateSoc voc current dt).soc = limitRange 0 (socAfter current dt c) 1 := by
  obtain ⟨ho, hs, hr, hc⟩ := h
  unfold Cell.updateSoc Cell.runaway
  unfold Spec.cap at hc
  simp only [ho, hs, hr, if_true, false_and, if_false, reduceCtorEq]
  rw [if_pos hc]
  dsimp only
  rw [if_pos (Or.inr rfl)]
  unfold socAfter Spec.cap secPerHr
  dsimp only
  rw [add_zero, div_div, mul_comm (3600 : K)]

/-- A disconnected cell keeps its charge. -/
theorem Cell.updateSoc_open (voc : K → K) (current dt : K) {c : Cell K} (ho : c.malfOpen = true)
    (hs : c.malfShort = false) : (c.updateSoc voc current dt).soc = c.soc := by
  unfold Cell.updateSoc
  simp only [ho, hs, if_false, reduceCtorEq]
  split_ifs <;> rfl

theorem cap_updateSoc (voc : K → K) (current dt : K) (c : Cell K) :
    Spec.cap (c.updateSoc voc current dt) = Spec.cap c := by
  obtain ⟨_, h2, _, _, h5, h6, _⟩ := Cell.updateSoc_same voc current dt c
  unfold Spec.cap
  rw [h2, h5, h6]

/-! ## The battery -/

/-- What stays true of a battery. -/
structure BattInv (b : Battery K) : Prop where
  cells : ∀ c ∈ b.cells, CellInv c
  ic : 0 ≤ b.interconnect
  soc0 : 0 ≤ b.soc
  soc1 : b.soc ≤ 1

theorem CellInv.setRunaway {c : Cell K} (h : CellInv c) (f : Bool) (d : K) :
    CellInv (c.setRunaway f d) := ⟨h.soc0, h.soc1, h.res, h.cap⟩

theorem Battery.sequenceRunaway_cells {b : Battery K} (h : ∀ c ∈ b.cells, CellInv c) (dt : K) :
    ∀ c ∈ (b.sequenceRunaway dt).cells, CellInv c := by
  have hm : ∀ i, ∀ c ∈ b.cells.modify i (Cell.setRunaway true b.runDuration), CellInv c :=
    fun i => forall_modify h (fun x hx => hx.setRunaway _ _)
  have hp : ∀ c ∈ b.cells.map (Cell.setRunaway false 0), CellInv c := by
    intro c hc
    obtain ⟨x, hx, rfl⟩ := List.mem_map.mp hc
    exact (h x hx).setRunaway _ _
  unfold Battery.sequenceRunaway
  dsimp only
  split_ifs <;> first | exact hm _ | exact hp | exact h

theorem Battery.sequenceRunaway_same (b : Battery K) (dt : K) :
    (b.sequenceRunaway dt).interconnect = b.interconnect ∧
    (b.sequenceRunaway dt).parallel = b.parallel ∧
    (b.sequenceRunaway dt).soc = b.soc ∧
    (b.sequenceRunaway dt).runFlag = b.runFlag ∧
    (b.sequenceRunaway dt).runDuration = b.runDuration ∧
    (b.sequenceRunaway dt).runInterval = b.runInterval ∧
    (b.sequenceRunaway dt).cells.length = b.cells.length := by
  unfold Battery.sequenceRunaway
  dsimp only
  split_ifs <;> simp

theorem effSoc_range {c : Cell K} (h : CellInv c) : 0 ≤ c.effSoc ∧ c.effSoc ≤ 1 := by
  unfold Cell.effSoc
  split_ifs
  · exact ⟨le_refl _, zero_le_one⟩
  · exact ⟨h.soc0, h.soc1⟩

theorem sum_range {α : Type _} (f : α → K) (l : List α) (h : ∀ x ∈ l, 0 ≤ f x ∧ f x ≤ 1) :
    0 ≤ (l.map f).sum ∧ (l.map f).sum ≤ (l.length : K) := by
  induction l with
  | nil => simp
  | cons x l ih =>
    obtain ⟨h0, h1⟩ := h x (List.mem_cons_self ..)
    obtain ⟨i0, i1⟩ := ih (fun y hy => h y (List.mem_cons_of_mem _ hy))
    rw [List.map_cons, List.sum_cons, List.length_cons]
    push_cast
    constructor <;> linarith

theorem Battery.updateOutputs_inv {b : Battery K} (h : ∀ c ∈ b.cells, CellInv c)
    (hi : 0 ≤ b.interconnect) (flux : K) : BattInv (b.updateOutputs flux) := by
  have hs : 0 ≤ (b.updateOutputs flux).soc ∧ (b.updateOutputs flux).soc ≤ 1 := by
    unfold Battery.updateOutputs
    dsimp only
    split_ifs with hl
    · rw [foldl_add, zero_add]
      obtain ⟨h0, h1⟩ := sum_range Cell.effSoc b.cells (fun c hc => effSoc_range (h c hc))
      have hl' : (0 : K) < (b.cells.length : K) := by exact_mod_cast hl
      exact ⟨div_nonneg h0 hl'.le, (div_le_one hl').2 h1⟩
    · exact ⟨le_refl _, zero_le_one⟩
  exact ⟨h, hi, hs.1, hs.2⟩

theorem Battery.updateCells_cells {b : Battery K} (h : ∀ c ∈ b.cells, CellInv c) (voc : K → K)
    (flux dt : K) : ∀ c ∈ (b.updateCells voc flux dt).cells, CellInv c := by
  unfold Battery.updateCells
  dsimp only
  split_ifs with hc
  · intro c hm
    obtain ⟨x, hx, rfl⟩ := List.mem_map.mp hm
    exact (h x hx).updateSoc _ _ _
  · exact h

theorem Battery.updateCells_ic (b : Battery K) (voc : K → K) (flux dt : K) :
    (b.updateCells voc flux dt).interconnect = b.interconnect := by
  unfold Battery.updateCells
  dsimp only
  split_ifs <;> rfl

theorem BattInv.op {b : Battery K} (h : BattInv b) (voc : K → K) (o : BattOp K) :
    BattInv (b.op voc o) := by
  cases o with
  | step blk dt flux =>
    apply Battery.updateOutputs_inv
    · exact Battery.updateCells_cells (b := b.step voc blk dt)
        (Battery.sequenceRunaway_cells h.cells dt) voc flux dt
    · rw [Battery.updateCells_ic]
      exact (Battery.sequenceRunaway_same b dt).1 ▸ h.ic
  | setOpen i flag =>
    exact ⟨forall_modify h.cells fun x hx => ⟨hx.soc0, hx.soc1, hx.res, hx.cap⟩, h.ic, h.soc0, h.soc1⟩
  | setShort i flag =>
    exact ⟨forall_modify h.cells fun x hx => ⟨hx.soc0, hx.soc1, hx.res, hx.cap⟩, h.ic, h.soc0, h.soc1⟩
  | setCapacity i flag value =>
    exact ⟨forall_modify h.cells fun x hx => ⟨hx.soc0, hx.soc1, hx.res, hx.cap⟩, h.ic, h.soc0, h.soc1⟩
  | setRunaway i flag d =>
    exact ⟨forall_modify h.cells fun x hx => hx.setRunaway _ _, h.ic, h.soc0, h.soc1⟩
  | setBattRunaway f d i => exact ⟨h.cells, h.ic, h.soc0, h.soc1⟩

theorem BattInv.run {b : Battery K} (h : BattInv b) (voc : K → K) (os : List (BattOp K)) :
    BattInv (b.run voc os) := by
  induction os generalizing b with
  | nil => exact h
  | cons o os ih => exact ih (h.op voc o)

theorem BattInv.init {f : BatteryConfig K} {b : Battery K} (h : Battery.init f = some b) :
    BattInv b := by
  unfold Battery.init at h
  split_ifs at h with h1 h2 h3
  cases hc : Cell.init f.cellResistance (f.maxCapacity / (f.numCells : Nat)) f.soc with
  | none => rw [hc] at h; cases h
  | some c =>
    rw [hc] at h
    cases h
    apply Battery.updateOutputs_inv
    · intro x hx
      cases (List.mem_replicate.mp hx).2
      unfold Cell.init at hc
      split_ifs at hc with k1 k2
      cases hc
      exact ⟨not_lt.1 fun e => h3 (Or.inl e), not_lt.1 fun e => h3 (Or.inr e), not_lt.1 k1,
        not_lt.1 k2⟩
    · exact not_lt.1 h1

/-! ## Resistance -/

theorem effResistance_nonneg {c : Cell K} (h : CellInv c) : 0 ≤ c.effResistance := by
  unfold Cell.effResistance
  have := dblEps_pos (K := K)
  split_ifs
  · exact this.le
  · exact (div_pos one_pos this).le
  · exact h.res

theorem seriesResistance_pos (cells : List (Cell K)) : dblEps ≤ seriesResistance cells :=
  le_max_right _ _

theorem parallelResistance_pos (cells : List (Cell K)) : 0 < parallelResistance cells :=
  div_pos one_pos (lt_of_lt_of_le dblEps_pos (le_max_right _ _))

end Gunns.Elect
