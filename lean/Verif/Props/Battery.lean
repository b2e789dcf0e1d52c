import Verif.Elect.BatteryRun
import Mathlib.Algebra.Order.Ring.Rat

/-!
# C45: the state of charge of a battery accounts for the current it gives

The state of charge of a battery should follow the current through it: it falls by what the battery
gives, rises by what it takes, and stays between empty and full whatever happens to the battery.

True of the code: the range (`c45_soc_range`), the balance as long as no cell is empty, full or failed
other than by disconnection (`c45_charge_balance_partial`, `c45_charge_bound`), the voltage and resistance
offered to the network (`c45_voltage`, `c45_conductance`, `c45_resistance`), the outputs (`c45_outputs`), the course of a thermal runaway
(`c45_runaway`, `c45_runaway_heat`) and the order in which cells are set on fire (`c45_sequence`).

False of the code: a battery that has been run empty can never be charged again (`c45_dead`,
`c45_dead_wrong`); an empty cell among others takes charge that nobody gives (`c45_charge_created`);
an empty battery still gives current (`c45_empty_sources`); a burning cell that is disconnected heats
for ever (`c45_open_heats`); and removing the runaway malfunction puts out the fire only if the timer
happens not to have just been reset (`c45_removal_partial`, `c45_removal_wrong`).
-/

namespace Gunns.Props

open Gunns.Elements Gunns.Elect Gunns.Elect.Spec

set_option linter.unusedSectionVars false

variable {K : Type _} [Field K] [LinearOrder K] [IsStrictOrderedRing K]

/-- The voltage table of the examples: twice the state of charge, plus one. -/
def exVoc (s : ℚ) : ℚ := 1 + 2 * s

/-- Two cells in series, half full: one ampere-hour each. -/
def exConfig : BatteryConfig ℚ :=
  { numCells := 2
    parallel := false
    cellResistance := 1
    interconnect := 0
    maxCapacity := 2
    soc := 1 / 2
    runDuration := 0
    runInterval := 0 }

/-- A battery with the given cells and nothing else. -/
def battOf (parallel : Bool) (cells : List (Cell ℚ)) : Battery ℚ :=
  { cells := cells
    runDuration := 0
    runInterval := 0
    parallel := parallel
    interconnect := 0
    runTimer := 0
    conductivity := 0
    source := 0
    sysCond := 0
    soc := 0
    capacity := 0
    heat := 0 }

/-- A cell with one ampere-hour, one Ohm and this state of charge. -/
def cellOf (s : ℚ) : Cell ℚ :=
  { malfCapValue := 0
    runDuration := 0
    resistance := 1
    maxCapacity := 1
    soc := s
    runPower := 0
    runRate := 0 }

/-- The battery made from `exConfig`. -/
def exBatt : Battery ℚ :=
  { battOf false [cellOf (1 / 2), cellOf (1 / 2)] with
    soc := 1 / 2
    capacity := 2 }

theorem exBatt_init : Battery.init exConfig = some exBatt := by decide +kernel

/-- **C45: the range.**  Whatever steps, currents and malfunctions come, in whatever order, the state
of charge of every cell and of the battery stays between zero and one. -/
theorem c45_soc_range {f : BatteryConfig K} {b : Battery K} (h : Battery.init f = some b)
    (voc : K → K) (os : List (BattOp K)) :
    (∀ c ∈ (b.run voc os).cells, 0 ≤ c.soc ∧ c.soc ≤ 1) ∧
      0 ≤ (b.run voc os).soc ∧ (b.run voc os).soc ≤ 1 := by
  have hi := (BattInv.init h).run voc os
  exact ⟨fun c hc => ⟨(hi.cells c hc).soc0, (hi.cells c hc).soc1⟩, hi.soc0, hi.soc1⟩

/-- The battery of the examples can be made, and charged beyond its capacity it is full. -/
example : ∃ b, Battery.init exConfig = some b ∧
    (b.run exVoc [.step none 1 (-36000)]).soc = 1 ∧
    (b.run exVoc [.step none 1 (-36000), .setShort 1 true, .step none 1 72000]).soc = 0 :=
  ⟨exBatt, exBatt_init, by decide +kernel, by decide +kernel⟩

/-- What `initialize` refuses. -/
theorem c45_init (f : BatteryConfig K) : (∃ b, Battery.init f = some b) ↔
    0 ≤ f.interconnect ∧ 1 ≤ f.numCells ∧ 0 ≤ f.soc ∧ f.soc ≤ 1 ∧ 0 ≤ f.cellResistance ∧
      dblEps ≤ f.maxCapacity / (f.numCells : K) := by
  unfold Battery.init Cell.init
  constructor
  · rintro ⟨b, h⟩
    split_ifs at h with h1 h2 h3 h4 h5
    push Not at h1 h2 h3 h4 h5
    exact ⟨h1, h2, h3.1, h3.2, h4, h5⟩
  · rintro ⟨h1, h2, h3, h3', h4, h5⟩
    rw [if_neg (not_lt.2 h1), if_neg (not_lt.2 h2),
      if_neg (not_or.2 ⟨not_lt.2 h3, not_lt.2 h3'⟩), if_neg (not_lt.2 h4), if_neg (not_lt.2 h5),
      if_neg (not_or.2 ⟨not_lt.2 h3, not_lt.2 h3'⟩)]
    exact ⟨_, rfl⟩

/-- **C45: the balance.**  As long as every cell is either disconnected or healthy, not empty, and
does not reach an end of its range, the charge in the battery falls by exactly the current through it
times the time, over any number of steps.  The full claim has no such condition; the theorems below
show it false. -/
theorem c45_charge_balance_partial (voc : K → K) (ps : List (Option K × K × K)) (b : Battery K)
    (h : WithinRun voc ps b) :
    stored (b.run voc (ps.map stepOf)).cells =
      stored b.cells - (ps.map fun p => p.2.2 * p.2.1).sum :=
  Battery.run_balance voc ps b h

/-- The condition is met by a battery with a disconnected and two healthy cells. -/
example : Within 1 6
    (battOf true [cellOf (1 / 2), { cellOf (1 / 3) with malfOpen := true }, cellOf (2 / 3)]) := by
  refine ⟨rfl, le_refl _, ⟨cellOf (1 / 2), by simp [battOf], ?_⟩, ?_⟩
  · unfold Healthy; decide +kernel
  · intro c hc
    simp only [battOf, List.mem_cons, List.not_mem_nil, or_false] at hc
    rcases hc with rfl | rfl | rfl
    · right; unfold Healthy socAfter; decide +kernel
    · left; unfold Disconnected; decide +kernel
    · right; unfold Healthy socAfter; decide +kernel

/-- **C45: no charge from nowhere.**  If every cell is disconnected or healthy and not empty, a step
takes from the battery at most the charge it gives, and adds at most the charge it takes, limits or
not. -/
theorem c45_charge_bound {f : BatteryConfig K} {b0 : Battery K} (h0 : Battery.init f = some b0)
    (voc : K → K) (os : List (BattOp K)) (hf : (b0.run voc os).runFlag = false)
    (ht : (b0.run voc os).runTimer ≤ 0)
    (hc : ∀ c ∈ (b0.run voc os).cells, Disconnected c ∨ (Healthy c ∧ dblEps < c.soc))
    (blk : Option K) (dt flux : K) :
    (0 ≤ flux * dt →
      stored (b0.run voc os).cells - flux * dt ≤
          stored ((b0.run voc os).op voc (.step blk dt flux)).cells ∧
        stored ((b0.run voc os).op voc (.step blk dt flux)).cells ≤ stored (b0.run voc os).cells) ∧
    (flux * dt ≤ 0 →
      stored (b0.run voc os).cells ≤ stored ((b0.run voc os).op voc (.step blk dt flux)).cells ∧
        stored ((b0.run voc os).op voc (.step blk dt flux)).cells ≤
          stored (b0.run voc os).cells - flux * dt) :=
  Battery.step_bound hf ht (c45_soc_range h0 voc os).1 hc voc blk

/-- The conditions are met by the battery of the examples after a step. -/
example : ∃ b, Battery.init exConfig = some b ∧
    (b.run exVoc [.step none 1 10]).runFlag = false ∧
    (b.run exVoc [.step none 1 10]).runTimer ≤ 0 ∧
    (∀ c ∈ (b.run exVoc [.step none 1 10]).cells, c.malfOpen = false ∧ c.malfShort = false ∧
      c.runFlag = false ∧ dblEps < (if c.malfCapFlag = true then c.malfCapValue else c.maxCapacity) ∧
      dblEps < c.soc) :=
  ⟨exBatt, exBatt_init, by decide +kernel, by decide +kernel, by decide +kernel⟩

/-- **C45: an empty battery stays empty.**  Once no cell has a state of charge above the tolerance,
nothing charges the battery: any number of steps with any currents leaves all cells as they are. -/
theorem c45_dead {b : Battery K} (hf : b.runFlag = false) (ht : b.runTimer ≤ 0)
    (hd : ∀ c ∈ b.cells, c.effSoc ≤ dblEps) (voc : K → K) (ps : List (Option K × K × K)) :
    (b.run voc (ps.map stepOf)).cells = b.cells :=
  Battery.dead_run hf ht hd voc ps

/-- **The claim is false of the code**: a battery that is run empty by a load is not charged by any
current for any time. -/
theorem c45_dead_wrong : ∃ b, Battery.init exConfig = some b ∧ b.soc = 1 / 2 ∧
    ∀ (blk : Option ℚ) (flux : ℚ) (n : Nat),
      ((b.run exVoc [.step none 1 3600]).run exVoc
        ((List.replicate n (blk, 1, flux)).map stepOf)).cells.map Cell.soc = [0, 0] := by
  refine ⟨exBatt, exBatt_init, by decide +kernel, fun blk flux n => ?_⟩
  rw [c45_dead (by decide +kernel) (by decide +kernel) (by decide +kernel)]
  decide +kernel

/-- **The claim is false of the code**: the current is divided by the number of cells that are not
empty, but given to all.  Two amperes charge this battery, whose first cell was emptied by a short
circuit since repaired, by four. -/
theorem c45_charge_created : ∃ b, Battery.init exConfig = some b ∧
    (∀ c ∈ (b.run exVoc [.setShort 0 true, .step none 1 0, .setShort 0 false]).cells, Healthy c) ∧
    stored (b.run exVoc [.setShort 0 true, .step none 1 0, .setShort 0 false,
        .step none 1 (-2)]).cells =
      stored (b.run exVoc [.setShort 0 true, .step none 1 0, .setShort 0 false]).cells + 4 :=
  ⟨exBatt, exBatt_init, by unfold Healthy; decide +kernel, by decide +kernel⟩

/-- **C45: the voltage.**  The battery offers the network the sum of the voltages of its working cells
in series; in parallel it offers the highest of them, or zero. -/
theorem c45_voltage (voc : K → K) (blk : Option K) (dt : K) (b : Battery K) :
    let b' := b.step voc blk dt
    let working := b'.cells.filter fun c => ¬c.malfOpen ∧ ¬c.malfShort ∧ ¬c.runFlag
    (b.parallel = false → b'.source = (working.map fun c => voc c.soc).sum) ∧
    (b.parallel = true →
      (∀ c ∈ working, voc c.soc ≤ b'.source) ∧ 0 ≤ b'.source ∧
      (b'.source = 0 ∨ ∃ c ∈ working, b'.source = voc c.soc)) := by
  have hp := (Battery.sequenceRunaway_same b dt).2.1
  have hw : ∀ c : Cell K, c.effVoltage voc =
      if ¬c.malfOpen ∧ ¬c.malfShort ∧ ¬c.runFlag then voc c.soc else 0 := by
    intro c
    unfold Cell.effVoltage
    cases c.malfOpen <;> cases c.malfShort <;> cases c.runFlag <;> rfl
  intro b' working
  constructor
  · intro hser
    have hs : b'.source = seriesVoc voc b'.cells := by
      show (if (b.sequenceRunaway dt).parallel = true then _ else _) = _
      rw [hp, hser]
      rfl
    rw [hs]
    unfold seriesVoc
    rw [foldl_add, zero_add]
    show (b'.cells.map _).sum = ((b'.cells.filter _).map _).sum
    generalize b'.cells = l
    induction l with
    | nil => rfl
    | cons c l ih =>
      rw [List.map_cons, List.sum_cons, ih, hw c]
      by_cases h : ¬c.malfOpen ∧ ¬c.malfShort ∧ ¬c.runFlag
      · rw [if_pos h, List.filter_cons_of_pos (by simpa using h), List.map_cons, List.sum_cons]
      · rw [if_neg h, List.filter_cons_of_neg (by simpa using h), zero_add]
  · intro hpar
    have hs : b'.source = parallelVoc voc b'.cells := by
      show (if (b.sequenceRunaway dt).parallel = true then _ else _) = _
      rw [hp, hpar]
      rfl
    have key : ∀ (l : List (Cell K)) (a : K), 0 ≤ a →
        let r := l.foldl (fun v c => if c.effVoltage voc > v then c.effVoltage voc else v) a
        a ≤ r ∧ (∀ c ∈ l, c.effVoltage voc ≤ r) ∧ (r = a ∨ ∃ c ∈ l, 0 < c.effVoltage voc ∧
          r = c.effVoltage voc) := by
      intro l
      induction l with
      | nil => intro a _; exact ⟨le_refl _, by simp, Or.inl rfl⟩
      | cons c l ih =>
        intro a ha
        dsimp only
        rw [List.foldl_cons]
        by_cases hg : c.effVoltage voc > a
        · rw [if_pos hg]
          obtain ⟨i1, i2, i3⟩ := ih (c.effVoltage voc) (ha.trans hg.le)
          refine ⟨hg.le.trans i1, ?_, ?_⟩
          · intro x hx
            rcases List.mem_cons.mp hx with rfl | hx
            · exact i1
            · exact i2 x hx
          · rcases i3 with e | ⟨x, hx, e1, e2⟩
            · exact Or.inr ⟨c, List.mem_cons_self .., lt_of_le_of_lt ha hg, e⟩
            · exact Or.inr ⟨x, List.mem_cons_of_mem _ hx, e1, e2⟩
        · rw [if_neg hg]
          obtain ⟨i1, i2, i3⟩ := ih a ha
          refine ⟨i1, ?_, ?_⟩
          · intro x hx
            rcases List.mem_cons.mp hx with rfl | hx
            · exact (not_lt.1 hg).trans i1
            · exact i2 x hx
          · rcases i3 with e | ⟨x, hx, e1, e2⟩
            · exact Or.inl e
            · exact Or.inr ⟨x, List.mem_cons_of_mem _ hx, e1, e2⟩
    obtain ⟨k1, k2, k3⟩ := key b'.cells 0 (le_refl _)
    rw [hs]
    refine ⟨?_, k1, ?_⟩
    · intro c hc
      obtain ⟨m1, m2⟩ := List.mem_filter.mp hc
      have := k2 c m1
      rw [hw c, if_pos (by simpa using m2)] at this
      exact this
    · rcases k3 with e | ⟨c, hc, e1, e2⟩
      · exact Or.inl e
      · right
        have h : ¬c.malfOpen ∧ ¬c.malfShort ∧ ¬c.runFlag := by
          by_contra hn
          rw [hw c, if_neg hn] at e1
          exact lt_irrefl _ e1
        refine ⟨c, List.mem_filter.mpr ⟨hc, by simpa using h⟩, ?_⟩
        rw [hw c, if_pos h] at e2
        exact e2

/-- Three cells, of which the fullest is short-circuited. -/
example :
    ((battOf false [cellOf (1 / 2), { cellOf 1 with malfShort := true }, cellOf (1 / 4)]).step
      exVoc none 1).source = 7 / 2 ∧
    ((battOf true [cellOf (1 / 2), { cellOf 1 with malfShort := true }, cellOf (1 / 4)]).step
      exVoc none 1).source = 2 := by decide +kernel

/-- **C45: the outputs.**  After each step the battery shows the mean state of charge of its cells,
counting failed ones as empty, the sum of the capacities of those that have not failed, and the heat
of the runaways and of its resistance. -/
theorem c45_outputs (voc : K → K) (blk : Option K) (dt flux : K) {b : Battery K}
    (hne : b.cells ≠ []) :
    let b' := b.op voc (.step blk dt flux)
    let connected := b'.cells.filter fun c => ¬c.malfOpen ∧ ¬c.malfShort
    b'.soc * b.cells.length = (connected.map Cell.soc).sum ∧
    b'.capacity = (connected.map Spec.cap).sum ∧
    b'.heat = (b'.cells.map Cell.runPower).sum +
      flux ^ 2 / max (b.step voc blk dt).sysCond dblEps := by
  intro b' connected
  have hlen : b'.cells.length = b.cells.length := (Battery.op_step_run voc blk dt flux b).2.2.2.2.2
  have hl : 0 < b.cells.length := List.length_pos_iff.mpr hne
  have hl' : (b.cells.length : K) ≠ 0 := by exact_mod_cast hl.ne'
  have hsys : ((b.step voc blk dt).updateCells voc flux dt).sysCond = (b.step voc blk dt).sysCond := by
    unfold Battery.updateCells
    dsimp only
    split_ifs <;> rfl
  have hcon : ∀ (f : Cell K → K) (l : List (Cell K)),
      ((l.filter fun c => ¬c.malfOpen ∧ ¬c.malfShort).map f).sum =
        (l.map fun c => if c.malfOpen = true ∨ c.malfShort = true then 0 else f c).sum := by
    intro f l
    induction l with
    | nil => rfl
    | cons c l ih =>
      rw [List.map_cons, List.sum_cons, ← ih]
      by_cases h : c.malfOpen = true ∨ c.malfShort = true
      · rw [if_pos h, List.filter_cons_of_neg (by simpa using fun e => h.resolve_left (by simp [e])),
          zero_add]
      · rw [if_neg h, List.filter_cons_of_pos (by simpa using h), List.map_cons, List.sum_cons]
  have e1 : b'.soc = if b'.cells.length > 0 then
      b'.cells.foldl (fun (s : K) c => s + c.effSoc) 0 / ((b'.cells.length : Nat) : K) else 0 := rfl
  have e2 : b'.capacity = b'.cells.foldl (fun s c => s + c.effCapacity) 0 := rfl
  have e3 : b'.heat = b'.cells.foldl (fun s c => s + c.runPower) 0 +
      flux * flux / max ((b.step voc blk dt).updateCells voc flux dt).sysCond dblEps := rfl
  refine ⟨?_, ?_, ?_⟩
  · rw [e1, hlen, if_pos hl, foldl_add, zero_add, div_mul_cancel₀ _ hl', hcon]
    rfl
  · rw [e2, foldl_add, zero_add, hcon]
    rfl
  · rw [e3, foldl_add, zero_add, hsys, pow_two]

example :
    let b := (battOf false [cellOf (1 / 2), { cellOf 1 with malfOpen := true }]).op exVoc
      (.step none 1 0)
    b.soc = 1 / 4 ∧ b.capacity = 1 ∧ b.heat = 0 := by decide +kernel

/-- **C45: the conductance.**  Whatever happened before, the battery is a source of positive
conductance. -/
theorem c45_conductance {f : BatteryConfig K} {b : Battery K} (h : Battery.init f = some b)
    (voc : K → K) (os : List (BattOp K)) (dt : K) :
    let b' := (b.run voc os).step voc none dt
    0 < b'.conductivity ∧ 0 < b'.sysCond ∧ b'.sysCond ≤ conductanceLimit ∧
      (b'.parallel = false → b'.conductivity ≤ 1 / dblEps) := by
  have hi := (BattInv.init h).run voc os
  intro b'
  have hic : 0 ≤ b'.interconnect := by
    show 0 ≤ ((b.run voc os).sequenceRunaway dt).interconnect
    rw [(Battery.sequenceRunaway_same _ dt).1]
    exact hi.ic
  have hr : b'.conductivity = 1 / (if b'.parallel = true then
      b'.interconnect + parallelResistance b'.cells
      else b'.interconnect + seriesResistance b'.cells) := rfl
  have hs := seriesResistance_pos b'.cells
  have hpp := parallelResistance_pos b'.cells
  have he := dblEps_pos (K := K)
  have hpos : 0 < b'.conductivity := by
    rw [hr]
    apply div_pos one_pos
    split_ifs <;> linarith
  have hsys : b'.sysCond = limitRange 0 b'.conductivity conductanceLimit := rfl
  have hcl : (0 : K) < conductanceLimit := by unfold conductanceLimit; positivity
  refine ⟨hpos, ?_, ?_, ?_⟩
  · rw [hsys]
    exact lt_of_lt_of_le (lt_min hpos hcl) (le_max_left _ _)
  · rw [hsys]
    exact max_le (min_le_right _ _) hcl.le
  · intro hp
    rw [hr, hp, if_neg (by simp)]
    exact one_div_le_one_div_of_le he (by linarith)

/-- **C45: the resistance** of a battery of working cells is that of the interconnection and of equal
resistors in series or in parallel. -/
theorem c45_resistance (voc : K → K) (blk : Option K) (dt r : K) (b : Battery K)
    (hr : dblEps ≤ r) (hr' : r ≤ 1 / dblEps) (hne : b.cells ≠ []) (hf : b.runFlag = false)
    (ht : b.runTimer ≤ 0)
    (hc : ∀ c ∈ b.cells, c.malfOpen = false ∧ c.malfShort = false ∧ c.runFlag = false ∧
      c.resistance = r) :
    (b.step voc blk dt).conductivity =
      1 / (b.interconnect + if b.parallel then r / b.cells.length else r * b.cells.length) := by
  obtain ⟨e1, e2, _⟩ := Battery.sequenceRunaway_same b dt
  have e3 := Battery.sequenceRunaway_idle hf ht dt
  have hrp : 0 < r := lt_of_lt_of_le dblEps_pos hr
  have hep := dblEps_pos (K := K)
  have heff : ∀ c ∈ b.cells, c.effResistance = r := by
    intro c hm
    obtain ⟨h1, h2, h3, h4⟩ := hc c hm
    unfold Cell.effResistance
    rw [h1, h2, h3, h4]
    simp
  have hlen : (1 : K) ≤ (b.cells.length : K) := by
    exact_mod_cast List.length_pos_iff.mpr hne
  have hmap : b.cells.map Cell.effResistance = List.replicate b.cells.length r := by
    apply List.eq_replicate_iff.mpr
    refine ⟨by simp, ?_⟩
    intro x hx
    obtain ⟨c, hm, rfl⟩ := List.mem_map.mp hx
    exact heff c hm
  have hmap' : b.cells.map (fun c => 1 / max c.effResistance dblEps) =
      List.replicate b.cells.length (1 / r) := by
    apply List.eq_replicate_iff.mpr
    refine ⟨by simp, ?_⟩
    intro x hx
    obtain ⟨c, hm, rfl⟩ := List.mem_map.mp hx
    rw [heff c hm, max_eq_left hr]
  have hser : seriesResistance b.cells = r * b.cells.length := by
    unfold seriesResistance
    rw [foldl_add, zero_add, hmap, List.sum_replicate, nsmul_eq_mul, mul_comm]
    apply max_eq_left
    nlinarith
  have hpar : parallelResistance b.cells = r / b.cells.length := by
    unfold parallelResistance
    dsimp only
    rw [foldl_add (fun c : Cell K => 1 / max c.effResistance dblEps), zero_add, hmap',
      List.sum_replicate, nsmul_eq_mul, max_eq_left]
    · field_simp
    · have : dblEps ≤ 1 / r := by
        rw [le_one_div hep hrp]
        exact hr'
      calc dblEps ≤ 1 * (1 / r) := by rw [one_mul]; exact this
        _ ≤ b.cells.length * (1 / r) := mul_le_mul_of_nonneg_right hlen (by positivity)
  show 1 / (if (b.sequenceRunaway dt).parallel = true then _ else _) = _
  rw [e1, e2, e3, hser, hpar]
  cases b.parallel <;> simp

example : ((battOf true [cellOf 1, cellOf 0, cellOf 1]).step exVoc none 1).conductivity = 3 ∧
    ((battOf false [cellOf 1, cellOf 0, cellOf 1]).step exVoc none 1).conductivity = 1 / 3 := by
  decide +kernel

/-- **An empty battery still gives current**: if the table has a voltage for an empty cell, a battery
of empty cells is a source of that voltage; and by `c45_dead` giving current does not change it. -/
theorem c45_empty_sources : ∃ b, Battery.init exConfig = some b ∧
    ∀ (blk : Option ℚ) (flux : ℚ) (n : Nat),
      let b' := (b.run exVoc [.step none 1 3600]).run exVoc
        ((List.replicate n (blk, 1, flux)).map stepOf)
      (∀ c ∈ b'.cells, c.soc = 0) ∧ (b'.step exVoc none 1).source = 2 := by
  refine ⟨exBatt, exBatt_init, fun blk flux n => ?_⟩
  set b0 := exBatt.run exVoc [BattOp.step none 1 3600] with hb0
  have hd := c45_dead (b := b0) (by rw [hb0]; decide +kernel) (by rw [hb0]; decide +kernel)
    (by rw [hb0]; decide +kernel) exVoc (List.replicate n (blk, 1, flux))
  have hz : ∀ c ∈ b0.cells, c.soc = 0 := by rw [hb0]; decide +kernel
  have hpf : ∀ n : Nat, ((b0.run exVoc ((List.replicate n (blk, 1, flux)).map stepOf)).runFlag = false ∧
      (b0.run exVoc ((List.replicate n (blk, 1, flux)).map stepOf)).runTimer = 0) ∧
      (b0.run exVoc ((List.replicate n (blk, 1, flux)).map stepOf)).parallel = false := by
    intro n
    induction n with
    | zero =>
      show (b0.runFlag = false ∧ b0.runTimer = 0) ∧ b0.parallel = false
      rw [hb0]
      decide +kernel
    | succ n ih =>
      rw [List.replicate_succ', List.map_append]
      unfold Battery.run at ih ⊢
      rw [List.foldl_append]
      refine ⟨Battery.idle_step ih.1.1 exVoc blk 1 flux, ?_⟩
      have : ∀ b : Battery ℚ, (b.op exVoc (stepOf (blk, 1, flux))).parallel = b.parallel := by
        intro b
        have hu : ∀ b' : Battery ℚ, (b'.updateCells exVoc flux 1).parallel = b'.parallel := by
          intro b'
          unfold Battery.updateCells
          dsimp only
          split_ifs <;> rfl
        exact (hu (b.step exVoc blk 1)).trans (Battery.sequenceRunaway_same b 1).2.1
      exact (this _).trans ih.2
  obtain ⟨⟨f1, f2⟩, f3⟩ := hpf n
  intro b'
  refine ⟨by rw [hd]; exact hz, ?_⟩
  show (if (b'.sequenceRunaway 1).parallel = true then _ else seriesVoc exVoc (b'.sequenceRunaway 1).cells) = _
  rw [(Battery.sequenceRunaway_same b' 1).2.1, f3, if_neg (by simp),
    Battery.sequenceRunaway_idle f1 f2.le, hd, hb0]
  decide +kernel

/-- **C45: the course of a thermal runaway** of a cell without load, at constant voltage.  The power
rises in proportion to the time, and the charge falls by the square of it, such that the cell is empty
as soon as `k (k + 1) dt²` reaches the square of the duration, and then there is no more power. -/
theorem c45_runaway {v dt D : K} (hdt : 0 < dt) (hD : dblEps ≤ D * D) {c : Cell K}
    (h : Burning c) (hd : c.runDuration = D) (h0 : 0 < c.soc) (h1 : c.soc ≤ 1)
    (hp : c.runPower = 0) (k : Nat) :
    let c' := (Cell.updateSoc (fun _ => v) 0 dt)^[k] c
    (k * (k + 1) * dt ^ 2 < D ^ 2 →
      c'.soc = c.soc * (1 - k * (k + 1) * dt ^ 2 / D ^ 2) ∧
      c'.runPower = 2 * (k * dt) * (charge c * max dblEps v) / D ^ 2) ∧
    (D ^ 2 ≤ k * (k + 1) * dt ^ 2 → c'.soc = 0 ∧ c'.runPower = 0) := by
  intro c'
  obtain ⟨k1, k2⟩ := Cell.burn_closed (v := v) hdt hD h hd h0 h1 hp k
  rw [pow_two, pow_two]
  constructor
  · intro hk
    have e : c' = _ := k1 hk
    rw [e]
    refine ⟨rfl, ?_⟩
    dsimp only
    split_ifs with hk0
    · rw [hk0]; simp
    · unfold charge
      ring
  · intro hk
    have e : c' = _ := k2 hk
    rw [e]
    exact ⟨rfl, rfl⟩

/-- It is over when the duration has passed, and not a full step earlier. -/
theorem c45_runaway_over {v dt D : K} (hdt : 0 < dt) (hDp : 0 < D) (hD : dblEps ≤ D * D) {c : Cell K}
    (h : Burning c) (hd : c.runDuration = D) (h0 : 0 < c.soc) (h1 : c.soc ≤ 1)
    (hp : c.runPower = 0) (k : Nat) :
    (D ≤ k * dt → ((Cell.updateSoc (fun _ => v) 0 dt)^[k] c).soc = 0) ∧
    ((k + 1) * dt < D → 0 < ((Cell.updateSoc (fun _ => v) 0 dt)^[k] c).soc) := by
  obtain ⟨k1, k2⟩ := c45_runaway (v := v) hdt hD h hd h0 h1 hp k
  have hk0 : (0 : K) ≤ k := Nat.cast_nonneg k
  constructor
  · intro hk
    refine (k2 ?_).1
    calc D ^ 2 ≤ (k * dt) ^ 2 := pow_le_pow_left₀ hDp.le hk 2
      _ ≤ k * (k + 1) * dt ^ 2 := by
        rw [mul_pow, pow_two (k : K)]
        apply mul_le_mul_of_nonneg_right _ (by positivity)
        nlinarith
  · intro hk
    have hlt : (k : K) * (k + 1) * dt ^ 2 < D ^ 2 := by
      calc (k : K) * (k + 1) * dt ^ 2 ≤ ((k + 1) * dt) ^ 2 := by
            rw [mul_pow, pow_two ((k : K) + 1)]
            apply mul_le_mul_of_nonneg_right _ (by positivity)
            nlinarith
        _ < D ^ 2 := pow_lt_pow_left₀ hk (by positivity) (by norm_num)
    rw [(k1 hlt).1]
    have : (k : K) * (k + 1) * dt ^ 2 / D ^ 2 < 1 := (div_lt_one (by positivity)).2 hlt
    exact mul_pos h0 (by linarith)

/-- A full cell burning for two seconds in steps of one: after one step half is left, after two none. -/
example : Burning { cellOf 1 with runFlag := true, runDuration := 2 } ∧
    ((Cell.updateSoc (fun _ => 1) 0 1)^[1]
      { cellOf 1 with runFlag := true, runDuration := 2 }).soc = 1 / 2 ∧
    ((Cell.updateSoc (fun _ => 1) 0 1)^[2]
      { cellOf 1 with runFlag := true, runDuration := 2 }).soc = 0 := by
  refine ⟨?_, ?_⟩
  · unfold Burning; decide +kernel
  · decide +kernel

/-- **C45: the heat of a thermal runaway** is the energy of the charge lost, whatever the table, until
the cell is empty.  (In the step that empties it the power is reset, so that this heat is not output.) -/
theorem c45_runaway_heat (voc : K → K) {dt : K} {c : Cell K} (h : Burning c) (h0 : 0 < c.soc)
    (h1 : c.soc ≤ 1) (hv : dblEps ≤ voc c.soc) (hpow : 0 ≤ c.runPower) (hrate : 0 ≤ c.runRate)
    (hdt : 0 ≤ dt) (hleft : 0 < (c.updateSoc voc 0 dt).soc) :
    (c.updateSoc voc 0 dt).runPower * dt =
      (charge c - charge (c.updateSoc voc 0 dt)) * voc c.soc := by
  have hcap : 0 < Spec.cap c := lt_trans dblEps_pos h.2.2.2
  have hvp : 0 < voc c.soc := lt_of_lt_of_le dblEps_pos hv
  have hup := Cell.updateSoc_burning voc 0 dt h h0
  dsimp only at hup
  rw [max_eq_right hv] at hup
  have hcc := cap_updateSoc voc 0 dt c
  unfold charge
  rw [hcc]
  rw [hup] at hleft ⊢
  dsimp only at hleft ⊢
  set rate := (if c.runPower = 0 then
      2 * (c.soc * Spec.cap c * voc c.soc * 3600) / max dblEps (c.runDuration * c.runDuration)
      else c.runRate) with hr
  have hr0 : 0 ≤ rate := by
    rw [hr]
    split_ifs
    · apply div_nonneg (by positivity)
      exact dblEps_pos.le.trans (le_max_left _ _)
    · exact hrate
  have hp0 : 0 ≤ c.runPower + rate * dt := by positivity
  rw [if_neg hleft.ne']
  set x := c.soc - (0 + (c.runPower + rate * dt) / voc c.soc) * dt / Spec.cap c / 3600 with hx
  have hx1 : x ≤ 1 := by
    have : 0 ≤ (0 + (c.runPower + rate * dt) / voc c.soc) * dt / Spec.cap c / 3600 := by positivity
    rw [hx]
    linarith
  have hx0 : 0 ≤ x := by
    by_contra hn
    rw [limitRange_of_neg (not_le.1 hn).le] at hleft
    exact lt_irrefl _ hleft
  rw [limitRange_of_mem hx0 hx1, hx]
  field_simp
  ring

/-- **A burning cell that is disconnected heats for ever** and loses no charge by it. -/
theorem c45_open_heats (voc : K → K) (current dt : K) {c : Cell K} (ho : c.malfOpen = true)
    (hs : c.malfShort = false) (hr : c.runFlag = true) (h0 : c.soc ≠ 0) (k : Nat) :
    (Cell.updateSoc voc current dt)^[k] c = c := by
  have h1 : Cell.updateSoc voc current dt c = c := by
    unfold Cell.updateSoc
    simp only [ho, hs, if_false, reduceCtorEq]
    rw [if_neg]
    rintro (e | e)
    · exact h0 e.symm
    · rw [hr] at e; cases e
  induction k with
  | zero => rfl
  | succ k ih => rw [Function.iterate_succ_apply, h1, ih]

/-- Such a cell comes about by disconnecting a burning one, here with 900 W. -/
example :
    let b := (battOf false [cellOf (1 / 2), cellOf (1 / 2)]).run (fun _ => 1)
      [.setRunaway 0 true 2, .step none 1 0, .setOpen 0 true]
    b.cells.map (fun c => (c.malfOpen, c.malfShort, c.runFlag, c.soc, c.runPower)) =
      [(true, false, true, 1 / 4, 900), (false, false, false, 1 / 2, 0)] ∧
    (b.run (fun _ => 1) [.step none 1 0, .step none 1 0, .step none 1 0]).heat = 900 := by
  decide +kernel

/-- **C45: the sequence.**  With the battery's thermal runaway malfunction on, and `m` steps to the
interval, the cells are set on fire in order, one every `m` steps from the first step on. -/
theorem c45_sequence (voc : K → K) {m : Nat} {dt : K} (hm : 1 ≤ m) {b : Battery K}
    (hne : b.cells ≠ []) (hf : b.runFlag = true) (ht : b.runTimer = 0) (hcell : b.runCell = 0)
    (hi : b.runInterval ≤ m * dt) (hlt : ∀ j, 1 ≤ j → j < m → (j : K) * dt < b.runInterval)
    (hno : ∀ c ∈ b.cells, c.runFlag = false) (ps : List (Option K × K)) (i : Nat) :
    ((b.run voc (ps.map fun p => .step p.1 dt p.2)).cells.map Cell.runFlag)[i]? =
      if i < b.cells.length then some (decide (i * m < ps.length)) else none := by
  have hn : 1 ≤ b.cells.length := List.length_pos_iff.mpr hne
  have h0 : SeqInv b.cells.length m 0 dt b := by
    refine ⟨hf, rfl, ?_, by omega, ?_, ?_⟩
    · rw [ht]; simp
    · rw [hcell]; simp
    · intro i hin
      rw [List.getElem?_map, List.getElem?_eq_getElem hin, Option.map_some,
        hno _ (List.getElem_mem hin)]
      simp
  have h := SeqInv.run hn hm voc ps h0 hi hlt
  rw [Nat.zero_add] at h
  split_ifs with hin
  · exact h.flags i hin
  · apply List.getElem?_eq_none
    rw [List.length_map]
    have := h.len
    exact this.le.trans (not_lt.1 hin)

/-- The cells set on fire burn for the duration set for the battery. -/
theorem c45_sequence_duration (voc : K → K) (dt : K) {b : Battery K} (hf : b.runFlag = true)
    (hno : ∀ c ∈ b.cells, c.runFlag = false) (ps : List (Option K × K)) :
    ∀ c ∈ (b.run voc (ps.map fun p => .step p.1 dt p.2)).cells,
      c.runFlag = true → c.runDuration = b.runDuration := by
  have key : ∀ (ps : List (Option K × K)) (b' : Battery K), b'.runFlag = true →
      b'.runDuration = b.runDuration →
      (∀ c ∈ b'.cells, c.runFlag = true → c.runDuration = b.runDuration) →
      ∀ c ∈ (b'.run voc (ps.map fun p => .step p.1 dt p.2)).cells,
        c.runFlag = true → c.runDuration = b.runDuration := by
    intro ps
    induction ps with
    | nil => intro b' _ _ h; exact h
    | cons p ps ih =>
      intro b' h1 h2 h3
      obtain ⟨o1, _, _, _, o5, _⟩ := Battery.op_step_run voc p.1 dt p.2 b'
      refine ih (b'.op voc (.step p.1 dt p.2)) (o1.trans h1) (o5.trans h2) ?_
      have hs : ∀ c ∈ (b'.sequenceRunaway dt).cells,
          c.runFlag = true → c.runDuration = b.runDuration := by
        have hm : ∀ i, ∀ c ∈ b'.cells.modify i (Cell.setRunaway true b'.runDuration),
            c.runFlag = true → c.runDuration = b.runDuration :=
          fun i => forall_modify h3 fun x _ _ => h2
        unfold Battery.sequenceRunaway
        simp only [h1, if_true]
        split_ifs <;> exact hm _
      intro c hc
      rw [Battery.step_cells] at hc
      split_ifs at hc
      · obtain ⟨x, hx, rfl⟩ := List.mem_map.mp hc
        obtain ⟨_, _, _, _, _, _, e7, e8⟩ := Cell.updateSoc_same voc
          (p.2 / (contributing (b'.sequenceRunaway dt).cells : Nat)) dt x
        rw [e7, e8]
        exact hs x hx
      · exact hs c hc
  exact key ps b hf rfl (fun c hc e => by rw [hno c hc] at e; cases e)

/-- Three cells, one second and a half between them, steps of one second: two steps to a cell. -/
example : (({ battOf false [cellOf 1, cellOf 1, cellOf 1] with
      runFlag := true, runInterval := 3 / 2 } : Battery ℚ).run exVoc
        [.step none 1 0, .step none 1 0, .step none 1 0]).cells.map Cell.runFlag =
    [true, true, false] := by decide +kernel

/-- **C45: removal** of the battery's thermal runaway malfunction ends that of all cells, if the timer
is running.  The full claim has no such condition. -/
theorem c45_removal_partial (voc : K → K) (blk : Option K) (dt flux : K) {b : Battery K}
    (hf : b.runFlag = false) (ht : 0 < b.runTimer) :
    ∀ c ∈ (b.op voc (.step blk dt flux)).cells, c.runFlag = false := by
  have h := Battery.step_flags voc blk dt flux b
  have hs : (b.sequenceRunaway dt).cells = b.cells.map (Cell.setRunaway false 0) := by
    unfold Battery.sequenceRunaway
    simp only [hf, if_false, reduceCtorEq]
    rw [if_pos ht]
  intro c hc
  have hm : c.runFlag ∈ (b.op voc (.step blk dt flux)).cells.map Cell.runFlag :=
    List.mem_map_of_mem hc
  rw [h, hs, List.map_map] at hm
  obtain ⟨x, _, e⟩ := List.mem_map.mp hm
  exact e.symm

example : ((battOf false [cellOf 1, cellOf 1]).run exVoc
      [.setBattRunaway true 10 2, .step none 1 0, .setBattRunaway false 0 0,
        .step none 1 0]).cells.map Cell.runFlag = [false, false] := by decide +kernel

/-- **The claim is false of the code**: if the malfunction is removed after a step that reset the timer,
which is every step if the interval is not longer than the step, the cells go on burning, for any
number of steps. -/
theorem c45_removal_wrong (ps : List (Option ℚ × ℚ × ℚ)) :
    (((battOf false [cellOf 1, cellOf 1]).run exVoc
      [.setBattRunaway true 10 1, .step none 1 0, .setBattRunaway false 0 0]).run exVoc
        (ps.map stepOf)).cells.map Cell.runFlag = [true, false] := by
  have key : ∀ (ps : List (Option ℚ × ℚ × ℚ)) (b : Battery ℚ), b.runFlag = false → b.runTimer ≤ 0 →
      (b.run exVoc (ps.map stepOf)).cells.map Cell.runFlag = b.cells.map Cell.runFlag := by
    intro ps
    induction ps with
    | nil => intro b _ _; rfl
    | cons p ps ih =>
      intro b hf ht
      obtain ⟨k1, k2⟩ := Battery.idle_step hf exVoc p.1 p.2.1 p.2.2
      have e := Battery.step_flags exVoc p.1 p.2.1 p.2.2 b
      rw [Battery.sequenceRunaway_idle hf ht] at e
      exact (ih (b.op exVoc (stepOf p)) k1 k2.le).trans e
  rw [key ps _ (by decide +kernel) (by decide +kernel)]
  decide +kernel

end Gunns.Props
