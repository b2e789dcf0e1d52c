import Verif.Interop.Bus
import Mathlib.Tactic.Ring
import Mathlib.Tactic.Linarith
import Mathlib.Tactic.Positivity

/-!
# A frame of the two-way fluid bus
-/

set_option linter.unusedSectionVars false

namespace Gunns.Interop

variable {K : Type _} [Field K] [LinearOrder K] [IsStrictOrderedRing K]

/-- States and capacitance as real models give them. -/
structure Event.Good (e : Event K) : Prop where
  energy : 0 < e.fluid.energy ∧ 0 < e.flow.energy
  pressure : 0 ≤ e.fluid.value
  cap : 0 ≤ e.cap
  fluids : ∀ i, 0 ≤ e.fluid.fluid i ∧ 0 ≤ e.flow.fluid i
  tcs : ∀ i, 0 ≤ e.fluid.tc i ∧ 0 ≤ e.flow.tc i

theorem copyFractions_nonneg {n size : Nat} {f old : Nat → K} (h : ∀ i, 0 ≤ f i) {i : Nat} (hi : i < n) :
    0 ≤ copyFractions n f size old i := by
  unfold copyFractions
  split_ifs
  · exact h i
  · exact le_refl _

theorem valid_iff {d : Data K} : d.valid = true ↔ (1 ≤ d.frame ∧ 0 < d.energy ∧ 0 ≤ d.cap ∧ (d.demand = false → 0 ≤ d.source) ∧
    (∀ i, i < d.numFluid → 0 ≤ d.fluid i) ∧ ∀ i, i < d.numTc → 0 ≤ d.tc i) := by
  unfold Data.valid
  split_ifs with h
  · constructor
    · intro h'; cases h'
    · rintro ⟨h1, h2, h3, h4, -, -⟩
      rcases h with h | h | h | ⟨h, h'⟩
      · omega
      · exact absurd h (not_le.2 h2)
      · exact absurd h (not_lt.2 h3)
      · exact absurd h (not_lt.2 (h4 h'))
  · push Not at h
    obtain ⟨h1, h2, h3, h4⟩ := h
    simp only [Bool.and_eq_true, List.all_eq_true, List.mem_range, decide_eq_true_eq]
    constructor
    · rintro ⟨h5, h6⟩
      refine ⟨by omega, h2, h3, ?_, h5, h6⟩
      intro hd
      by_contra hc
      exact absurd hd (h4 (not_le.1 hc))
    · rintro ⟨-, -, -, -, h5, h6⟩
      exact ⟨h5, h6⟩

/-- The data of the side when it processes its inputs. -/
def received (recv : Option (Data K)) (b : Bus K) : Data K := recv.getD b.inD

/-- How the role of an unforced side changes in a frame. -/
inductive Change (b : Bus K) (d : Data K) (cap : K) (b' : Bus K) : Prop
  | stay (mode : b'.outD.demand = b.outD.demand) (since : b'.since = b.since + 1)
      (noSupply : ¬ (d.valid = true ∧ b.outD.demand = true ∧ d.demand = true ∧ b.last = false))
      (noDemand : ¬ (d.valid = true ∧ b.outD.demand = false ∧ d.demand = false ∧
        (b.outD.cap < d.cap ∨ (b.master = true ∧ b.outD.cap = d.cap))))
      (noCap : ¬ (b.outD.demand = false ∧ (b.outD.frame : Int) - b.since < d.loop ∧ cap * ratio < d.cap))
  | toSupply (was : b.outD.demand = true) (mode : b'.outD.demand = false) (since : b'.since = 0) (valid : d.valid = true)
      (other : d.demand = true) (last : b.last = false)
  | toDemand (was : b.outD.demand = false) (mode : b'.outD.demand = true) (since : b'.since = 0) (valid : d.valid = true)
      (other : d.demand = false) (less : b.outD.cap < d.cap ∨ (b.master = true ∧ b.outD.cap = d.cap))
  | onCap (was : b.outD.demand = false) (mode : b'.outD.demand = true) (since : b'.since = 0)
      (seen : (b.outD.frame : Int) - b.since < d.loop) (less : cap * ratio < d.cap)

/-- What a frame does, whatever the role. -/
structure Framed (b : Bus K) (d : Data K) (cap : K) (b' : Bus K) : Prop where
  frame : b'.outD.frame = b.outD.frame + 1
  loop : b'.outD.loop = d.frame
  inD : b'.inD = d
  cap : b'.outD.cap = cap
  master : b'.master = b.master
  last : b'.last = if d.valid = true then d.demand else b.last
  sizes : b'.outD.numFluid = b.outD.numFluid ∧ b'.outD.numTc = b.outD.numTc

/-- After `processInputs` of an unforced side. -/
theorem inputs_spec {b : Bus K} (hf : b.forced = .none) :
    let c := processInputs b
    (c.outD.frame = b.outD.frame + 1 ∧ c.outD.loop = b.inD.frame ∧ c.inD = b.inD ∧ c.outD.cap = b.outD.cap ∧
      c.master = b.master ∧ c.forced = .none ∧ c.latency = (b.outD.frame + 1 : Int) - b.inD.loop ∧
      c.last = (if b.inD.valid = true then b.inD.demand else b.last) ∧
      c.outD.numFluid = b.outD.numFluid ∧ c.outD.numTc = b.outD.numTc) ∧
    ((c.outD.demand = b.outD.demand ∧ c.since = b.since + 1 ∧
        ¬ (b.inD.valid = true ∧ b.outD.demand = true ∧ b.inD.demand = true ∧ b.last = false) ∧
        ¬ (b.inD.valid = true ∧ b.outD.demand = false ∧ b.inD.demand = false ∧
          (b.outD.cap < b.inD.cap ∨ (b.master = true ∧ b.outD.cap = b.inD.cap)))) ∨
      (b.outD.demand = true ∧ c.outD.demand = false ∧ c.since = 0 ∧ b.inD.valid = true ∧ b.inD.demand = true ∧ b.last = false) ∨
      (b.outD.demand = false ∧ c.outD.demand = true ∧ c.since = 0 ∧ b.inD.valid = true ∧ b.inD.demand = false ∧
        (b.outD.cap < b.inD.cap ∨ (b.master = true ∧ b.outD.cap = b.inD.cap)))) := by
  have e : processInputs b = flipModesOnInput (updateFrameCounts b) := rfl
  have hf' : (updateFrameCounts b).forced = .none := hf
  have n1 : ¬ ((updateFrameCounts b).forced = .demand ∧ (updateFrameCounts b).inDemand = false) := by
    rw [hf']; rintro ⟨h, -⟩; cases h
  have n2 : ¬ ((updateFrameCounts b).forced = .supply ∧ (updateFrameCounts b).inDemand = true) := by
    rw [hf']; rintro ⟨h, -⟩; cases h
  have fd : ∀ c : Bus K, c.forced = .none → flipToDemandMode c = { c with
      since := 0
      outD := { c.outD with demand := true } } := by
    intro c hc; unfold flipToDemandMode; rw [if_pos (by rw [hc]; intro h; cases h)]
  have fs : ∀ c : Bus K, c.forced = .none → flipToSupplyMode c = { c with
      since := 0
      outD := { c.outD with demand := false } } := by
    intro c hc; unfold flipToSupplyMode; rw [if_pos (by rw [hc]; intro h; cases h)]
  rw [e]
  unfold flipModesOnInput
  rw [if_neg n1, if_neg n2]
  by_cases hv : b.inD.valid = true
  · have hv' : (updateFrameCounts b).inD.valid = true := hv
    rw [if_pos hv']
    by_cases h1 : (updateFrameCounts b).outD.demand = true ∧ (updateFrameCounts b).inD.demand = true ∧ (updateFrameCounts b).last = false
    · rw [if_pos h1, fs _ hf']
      refine ⟨⟨rfl, rfl, rfl, rfl, rfl, hf', rfl, ?_, rfl, rfl⟩, Or.inr (Or.inl ⟨h1.1, rfl, rfl, hv, h1.2.1, h1.2.2⟩)⟩
      rw [if_pos hv]; rfl
    · rw [if_neg h1]
      by_cases h2 : (updateFrameCounts b).inD.demand = false ∧ (updateFrameCounts b).outD.demand = false
      · rw [if_pos h2]
        by_cases h3 : (updateFrameCounts b).outD.cap < (updateFrameCounts b).inD.cap ∨
            ((updateFrameCounts b).master = true ∧ (updateFrameCounts b).outD.cap = (updateFrameCounts b).inD.cap)
        · rw [if_pos h3, fd _ hf']
          refine ⟨⟨rfl, rfl, rfl, rfl, rfl, hf', rfl, ?_, rfl, rfl⟩, Or.inr (Or.inr ⟨h2.2, rfl, rfl, hv, h2.1, h3⟩)⟩
          rw [if_pos hv]; rfl
        · simp only [if_neg h3]
          refine ⟨⟨rfl, rfl, rfl, rfl, rfl, hf', rfl, ?_, rfl, rfl⟩, Or.inl ⟨rfl, rfl, fun h => h1 h.2, fun h => h3 h.2.2.2⟩⟩
          rw [if_pos hv]; rfl
      · simp only [if_neg h2]
        refine ⟨⟨rfl, rfl, rfl, rfl, rfl, hf', rfl, ?_, rfl, rfl⟩,
          Or.inl ⟨rfl, rfl, fun h => h1 h.2, fun h => h2 ⟨h.2.2.1, h.2.1⟩⟩⟩
        rw [if_pos hv]; rfl
  · have hv' : ¬ (updateFrameCounts b).inD.valid = true := hv
    rw [if_neg hv']
    refine ⟨⟨rfl, rfl, rfl, rfl, rfl, hf', rfl, ?_, rfl, rfl⟩, Or.inl ⟨rfl, rfl, fun h => hv h.1, fun h => hv h.1⟩⟩
    rw [if_neg hv]; rfl

/-- The side with the state given by the model for its role. -/
def withState (fluid flow : Given K) (c : Bus K) : Bus K :=
  { c with outD := putState (if c.outD.demand = true then flow else fluid) c.outD }

/-- The state given by the model goes to the output; nothing else changes. -/
theorem setState_eq (fluid flow : Given K) (c : Bus K) :
    (if c.inDemand = true then setFlowState flow c else setFluidState fluid c) =
      withState fluid flow c := by
  unfold withState setFlowState setFluidState Bus.inDemand
  cases c.outD.demand <;> simp

/-- After `processOutputs` of an unforced side. -/
theorem outputs_spec {c : Bus K} (hf : c.forced = .none) (cap : K) :
    processOutputs cap c = if c.outD.demand = false ∧ c.latency < c.since ∧ cap * ratio < c.inD.cap then
        { c with
          since := 0
          outD := { c.outD with
            cap := cap
            demand := true
            source := 0 } }
      else { c with outD := { c.outD with cap := cap } } := by
  by_cases h1 : c.outD.demand = false
  · have e : processOutputs cap c = flipModesOnCapacitance { c with outD := { c.outD with cap := cap } } := if_pos h1
    rw [e]
    unfold flipModesOnCapacitance
    by_cases h2 : c.latency < c.since ∧ cap * ratio < c.inD.cap
    · rw [if_pos (show (c.latency < c.since ∧ cap * ratio < c.inD.cap) from h2), if_pos ⟨h1, h2⟩]
      unfold flipToDemandMode
      rw [if_pos (by show c.forced ≠ _; rw [hf]; intro h; cases h)]
    · rw [if_neg (show ¬ (c.latency < c.since ∧ cap * ratio < c.inD.cap) from h2), if_neg (fun h => h2 h.2)]
  · rw [if_neg (fun h => h1 h.1)]
    exact if_neg h1

theorem frame_eq (recv : Option (Data K)) (fluid flow : Given K) (cap : K) (b : Bus K) :
    frame recv .none fluid flow cap b =
      processOutputs cap
        (withState fluid flow (processInputs { b with
            forced := .none
            inD := received recv b })) := by
  unfold frame
  cases recv <;> simp only [setState_eq] <;> rfl

theorem frame_spec {recv : Option (Data K)} {fluid flow : Given K} {cap : K} {b : Bus K}
    (hloop : (received recv b).loop ≤ b.outD.frame) :
    Framed b (received recv b) cap (frame recv .none fluid flow cap b) ∧
    Change b (received recv b) cap (frame recv .none fluid flow cap b) := by
  rw [frame_eq]
  obtain ⟨⟨i1, i2, i3, i4, i5, i6, i7, i8, i9, i10⟩, hcase⟩ := inputs_spec (b := { b with
            forced := .none
            inD := received recv b }) rfl
  generalize hd : received recv b = d at *
  generalize processInputs { b with
            forced := .none
            inD := d } = c at *
  rw [outputs_spec (c := withState fluid flow c) i6]
  split_ifs with h
  · obtain ⟨h1, h2, h3⟩ := h
    refine ⟨⟨i1, i2, i3, rfl, i5, i8, i9, i10⟩, ?_⟩
    rcases hcase with ⟨g1, g2, g3, g4⟩ | ⟨g1, g2, g3, -⟩ | ⟨g1, g2, -⟩
    · refine .onCap (g1.symm.trans h1) rfl rfl ?_ (by have h3' : cap * ratio < c.inD.cap := h3; rw [i3] at h3'; exact h3')
      have h2' : c.latency < c.since := h2
      rw [g2, i7] at h2'
      show (b.outD.frame : Int) - b.since < d.loop
      change (b.outD.frame + 1 : Int) - d.loop < b.since + 1 at h2'
      omega
    · exfalso
      have h2' : c.latency < c.since := h2
      rw [g3, i7] at h2'
      change (b.outD.frame + 1 : Int) - d.loop < 0 at h2'
      omega
    · have : c.outD.demand = false := h1
      rw [g2] at this; cases this
  · refine ⟨⟨i1, i2, i3, rfl, i5, i8, i9, i10⟩, ?_⟩
    rcases hcase with ⟨g1, g2, g3, g4⟩ | ⟨g1, g2, g3, g4, g5, g6⟩ | ⟨g1, g2, g3, g4, g5, g6⟩
    · refine .stay g1 g2 g3 g4 ?_
      rintro ⟨n1, n2, n3⟩
      apply h
      refine ⟨g1.trans n1, ?_, by show cap * ratio < c.inD.cap; rw [i3]; exact n3⟩
      show c.latency < c.since
      rw [g2, i7]
      show (b.outD.frame + 1 : Int) - d.loop < b.since + 1
      omega
    · exact .toSupply g1 g2 g3 g4 g5 g6
    · exact .toDemand g1 g2 g3 g4 g5 g6

/-- What a side sends is valid if the model gives it valid states. -/
theorem frame_valid {e : Event K} (he : e.Good) (recv : Option (Data K)) (b : Bus K) :
    (frame recv .none e.fluid e.flow e.cap b).outD.valid = true := by
  rw [frame_eq]
  obtain ⟨⟨i1, i2, i3, i4, i5, i6, i7, i8, i9, i10⟩, -⟩ := inputs_spec (b := { b with
            forced := .none
            inD := received recv b }) rfl
  generalize processInputs { b with
            forced := .none
            inD := received recv b } = c at *
  have hen : 0 < (if c.outD.demand = true then e.flow else e.fluid).energy := by
    split_ifs
    · exact he.energy.2
    · exact he.energy.1
  have hfl : ∀ i, 0 ≤ (if c.outD.demand = true then e.flow else e.fluid).fluid i := by
    intro i; split_ifs
    · exact (he.fluids i).2
    · exact (he.fluids i).1
  have htc : ∀ i, 0 ≤ (if c.outD.demand = true then e.flow else e.fluid).tc i := by
    intro i; split_ifs
    · exact (he.tcs i).2
    · exact (he.tcs i).1
  have hp : c.outD.demand = false → 0 ≤ (if c.outD.demand = true then e.flow else e.fluid).value := by
    intro h; rw [h]; exact he.pressure
  rw [outputs_spec (c := withState e.fluid e.flow c) i6, valid_iff]
  split_ifs with h
  · exact ⟨by show 1 ≤ c.outD.frame; rw [i1]; exact Nat.le_add_left _ _, hen, he.cap, (fun h => by cases h),
      fun i hi => copyFractions_nonneg hfl hi, fun i hi => copyFractions_nonneg htc hi⟩
  · exact ⟨by show 1 ≤ c.outD.frame; rw [i1]; exact Nat.le_add_left _ _, hen, he.cap, hp,
      fun i hi => copyFractions_nonneg hfl hi, fun i hi => copyFractions_nonneg htc hi⟩

/-- The data a side has and the data on the way to it. -/
def Sys.view (s : Sys K) (x : Bool) : List (Data K) := (s.side x).inD :: s.chan x

/-- What holds of the sides and the data on the way as long as no role is forced. -/
structure Inv (s : Sys K) : Prop where
  since : ∀ x, 0 ≤ (s.side x).since ∧ (s.side x).since ≤ (s.side x).outD.frame
  sorted : ∀ x, (s.view x).Pairwise (fun c d => c.frame ≤ d.frame)
  sent : ∀ x, ∀ d ∈ s.view x, d.frame ≤ (s.side (!x)).outD.frame ∧ d.loop ≤ (s.side (!x)).inD.frame ∧
    (1 ≤ d.frame → d.valid = true) ∧ (d.frame = 0 → d.demand = false) ∧
    (((s.side (!x)).outD.frame : Int) - (s.side (!x)).since ≤ d.frame → d.demand = (s.side (!x)).outD.demand)
  last : ∀ x, (s.side x).last = (s.side x).inD.demand
  unseen : (s.side true).outD.demand = true → (s.side false).outD.demand = true →
    (s.side true).inD.demand = false ∨ (s.side false).inD.demand = false

theorem received_view (i : Data K) (q : List (Data K)) (k : Nat) :
    ((q.take k).getLast?).getD i :: q.drop k = (i :: q).drop (min k q.length) := by
  induction q generalizing i k with
  | nil => simp
  | cons a q ih =>
    cases k with
    | zero => simp
    | succ k =>
      have := ih a k
      simp only [List.take_succ_cons, List.drop_succ_cons, List.length_cons]
      rw [Nat.succ_min_succ, List.drop_succ_cons, ← this]
      congr 1
      cases h : q.take k with
      | nil => simp
      | cons b l => simp [List.getLast?_cons]

theorem Event.run_side (e : Event K) (s : Sys K) (x : Bool) :
    (e.run s).side x = if x = e.who then
      frame ((s.chan e.who).take e.count).getLast? e.role e.fluid e.flow e.cap (s.side e.who) else s.side x := rfl

theorem Event.run_view_self (e : Event K) (s : Sys K) (hr : e.role = .none) :
    (e.run s).view e.who = (s.view e.who).drop (min e.count (s.chan e.who).length) := by
  have h : ((e.run s).side e.who).inD = received ((s.chan e.who).take e.count).getLast? (s.side e.who) := by
    rw [Event.run_side, if_pos rfl, hr, frame_eq]
    obtain ⟨⟨-, -, i3, -, -, i6, -⟩, -⟩ := inputs_spec (b := { s.side e.who with
            forced := .none
            inD := received ((s.chan e.who).take e.count).getLast? (s.side e.who) }) rfl
    rw [outputs_spec (c := withState e.fluid e.flow _) i6]
    split_ifs <;> exact i3
  have h2 : (e.run s).chan e.who = (s.chan e.who).drop e.count := by
    show (if e.who = e.who then _ else _) = _
    rw [if_pos rfl]
  unfold Sys.view
  rw [h, h2]
  exact received_view _ _ _

theorem Event.run_view_other (e : Event K) (s : Sys K) :
    (e.run s).view (!e.who) = s.view (!e.who) ++ [((e.run s).side e.who).outD] := by
  have hne : (!e.who) ≠ e.who := by cases e.who <;> simp
  have h : (e.run s).side (!e.who) = s.side (!e.who) := by rw [Event.run_side, if_neg hne]
  have h2 : (e.run s).chan (!e.who) = s.chan (!e.who) ++ [((e.run s).side e.who).outD] := by
    rw [Event.run_side, if_pos rfl]
    show (if (!e.who) = e.who then _ else _) = _
    rw [if_neg hne]
  unfold Sys.view
  rw [h, h2]; rfl

theorem unseen_iff {s : Sys K} (x : Bool) : ((s.side true).outD.demand = true → (s.side false).outD.demand = true →
    (s.side true).inD.demand = false ∨ (s.side false).inD.demand = false) ↔
    ((s.side x).outD.demand = true → (s.side (!x)).outD.demand = true →
    (s.side x).inD.demand = false ∨ (s.side (!x)).inD.demand = false) := by
  cases x
  · exact ⟨fun h a b => (h b a).symm, fun h a b => (h b a).symm⟩
  · exact Iff.rfl

/-- The data the side has after the event, and how its role changes. -/
theorem Event.spec {e : Event K} {s : Sys K} (hi : Inv s) (hr : e.role = .none) :
    ∃ d, d ∈ s.view e.who ∧ (s.side e.who).inD.frame ≤ d.frame ∧ Framed (s.side e.who) d e.cap ((e.run s).side e.who) ∧
      Change (s.side e.who) d e.cap ((e.run s).side e.who) := by
  have hsub : ((s.view e.who).drop (min e.count (s.chan e.who).length)).Sublist (s.view e.who) := List.drop_sublist _ _
  set r := ((s.chan e.who).take e.count).getLast? with hrr
  have hd : received r (s.side e.who) ∈ s.view e.who := by
    apply hsub.mem
    have := received_view (s.side e.who).inD (s.chan e.who) e.count
    unfold Sys.view
    rw [← this]
    exact List.mem_cons_self
  have hle : (s.side e.who).inD.frame ≤ (received r (s.side e.who)).frame := by
    have h1 := hi.sorted e.who
    unfold Sys.view at h1 hd
    rw [List.pairwise_cons] at h1
    rcases List.mem_cons.1 hd with h | h
    · rw [h]
    · exact h1.1 _ h
  have hloop : (received r (s.side e.who)).loop ≤ (s.side e.who).outD.frame := by
    have h1 := (hi.sent e.who _ hd).2.1
    have h2 := (hi.sent (!e.who) (s.side (!e.who)).inD List.mem_cons_self).1
    rw [Bool.not_not] at h2
    exact h1.trans h2
  obtain ⟨g1, g2⟩ := frame_spec (fluid := e.fluid) (flow := e.flow) (cap := e.cap) hloop
  refine ⟨_, hd, hle, ?_, ?_⟩ <;> rw [Event.run_side, if_pos rfl, hr]
  · exact g1
  · exact g2

theorem inv_step {e : Event K} {s : Sys K} (hi : Inv s) (hg : e.Good) (hr : e.role = .none) : Inv (e.run s) := by
  obtain ⟨d, hd, hle, hF, hC⟩ := Event.spec hi hr
  have hne : (!e.who) ≠ e.who := by cases e.who <;> simp
  have hy : (e.run s).side (!e.who) = s.side (!e.who) := by rw [Event.run_side, if_neg hne]
  have hval : ((e.run s).side e.who).outD.valid = true := by
    rw [Event.run_side, if_pos rfl, hr]; exact frame_valid hg _ _
  have vx := Event.run_view_self e s hr
  have vy := Event.run_view_other e s
  have hsub : ((s.view e.who).drop (min e.count (s.chan e.who).length)).Sublist (s.view e.who) := List.drop_sublist _ _
  have two : ∀ z, z = e.who ∨ z = !e.who := by intro z; cases z <;> cases e.who <;> simp
  obtain ⟨s0, s1⟩ := hi.since e.who
  have hs' : 0 ≤ ((e.run s).side e.who).since ∧ ((e.run s).side e.who).since ≤ ((e.run s).side e.who).outD.frame := by
    rw [hF.frame]
    rcases hC with ⟨-, h, -, -⟩ | ⟨-, -, h, -⟩ | ⟨-, -, h, -⟩ | ⟨-, -, h, -⟩ <;> rw [h] <;>
      constructor <;> push_cast <;> omega
  have hdx := hi.sent e.who d hd
  refine ⟨?_, ?_, ?_, ?_, ?_⟩
  · intro z
    rcases two z with rfl | rfl
    · exact hs'
    · rw [hy]; exact hi.since _
  · intro z
    rcases two z with rfl | rfl
    · rw [vx]; exact (hi.sorted e.who).sublist hsub
    · rw [vy, List.pairwise_append]
      refine ⟨hi.sorted _, List.pairwise_singleton _ _, ?_⟩
      intro a ha b hb
      rw [List.mem_singleton] at hb
      have := (hi.sent (!e.who) a ha).1
      rw [Bool.not_not] at this
      rw [hb, hF.frame]; omega
  · intro z
    rcases two z with rfl | rfl
    · intro a ha
      rw [vx] at ha
      rw [hy]; exact hi.sent e.who a (hsub.mem ha)
    · intro a ha
      rw [Bool.not_not]
      rw [vy, List.mem_append, List.mem_singleton] at ha
      rcases ha with ha | ha
      · obtain ⟨a1, a2, a3, a4, a5⟩ := hi.sent (!e.who) a ha
        rw [Bool.not_not] at a1 a2 a5
        refine ⟨by rw [hF.frame]; omega, by rw [hF.inD]; omega, a3, a4, ?_⟩
        rw [hF.frame]
        rcases hC with ⟨h1, h2, -, -⟩ | ⟨-, -, h, -⟩ | ⟨-, -, h, -⟩ | ⟨-, -, h, -⟩
        · rw [h1, h2]; intro h; apply a5; push_cast at h; omega
        all_goals (rw [h]; intro h; push_cast at h; omega)
      · rw [ha]
        exact ⟨le_refl _, by rw [hF.loop, hF.inD], fun _ => hval, fun h => by rw [hF.frame] at h; omega, fun _ => rfl⟩
  · intro z
    rcases two z with rfl | rfl
    · rw [hF.last, hF.inD]
      split_ifs with hv
      · rfl
      · have hd0 : d.frame = 0 := by
          by_contra h
          exact hv (hdx.2.2.1 (by omega))
        have hi0 : (s.side e.who).inD.frame = 0 := by omega
        rw [hi.last, hdx.2.2.2.1 hd0]
        exact (hi.sent e.who _ List.mem_cons_self).2.2.2.1 hi0
    · rw [hy]; exact hi.last _
  · rw [unseen_iff e.who]
    intro hx hyD
    rw [hF.inD, hy]
    rw [hy] at hyD
    have hu := (unseen_iff e.who).1 hi.unseen
    rcases hC with ⟨h1, -, h3, -⟩ | ⟨-, h1, -⟩ | ⟨h1, h2, h3, h4, h5, h6⟩ | ⟨h1, h2, h3, h4, h5⟩
    · rw [h1] at hx
      rcases hu hx hyD with h | h
      · left
        by_contra hc
        rw [Bool.not_eq_false] at hc
        apply h3
        refine ⟨?_, hx, hc, by rw [hi.last]; exact h⟩
        apply hdx.2.2.1
        by_contra h0
        rw [hdx.2.2.2.1 (by omega)] at hc
        cases hc
      · exact Or.inr h
    · rw [h1] at hx; cases hx
    · exact Or.inl h5
    · right
      have e1 := hi.sent (!e.who) (s.side (!e.who)).inD List.mem_cons_self
      rw [Bool.not_not] at e1
      rw [e1.2.2.2.2 ?_]
      · exact h1
      · have := hdx.2.1
        omega

theorem inv_init (m : Bool → Bool) (n t : Nat) : Inv (Sys.init m n t : Sys K) := by
  refine ⟨fun x => ⟨le_refl _, le_refl _⟩, fun x => List.pairwise_singleton _ _, ?_, fun x => rfl, ?_⟩
  · intro x d hd
    have : d = Data.init n t := by
      have : d ∈ [(Data.init n t : Data K)] := hd
      rwa [List.mem_singleton] at this
    subst this
    exact ⟨le_refl _, le_refl _, fun h => absurd h (Nat.not_succ_le_zero 0), fun _ => rfl, fun _ => rfl⟩
  · intro h; cases h

end Gunns.Interop
