import Verif.Interop.FluidIf
import Verif.Interop.BusLemmas
import Verif.Props.Mixture
import Verif.Props.Bus
import Mathlib.Tactic.LinearCombination

/-!
# C67: the distributed fluid interface between two networks
-/

set_option linter.unusedSectionVars false

namespace Gunns.Props

open Gunns.Interop Gunns.Mixture
open Finset (range)

variable {K : Type _} [Field K] [LinearOrder K] [IsStrictOrderedRing K]

/-! ## Statements -/

/-- The mole fraction of compound `i` of a fluid. -/
def c67mole (c : IfConfig K) (b : Body K) (i : Nat) : K := c66share c.nF (fun k => b.frac k / c.mw k) i

/-- A fluid as there is in a network: fractions of a mixture, no negative trace compounds, a temperature. -/
structure c67Proper (c : IfConfig K) (b : Body K) : Prop where
  mix : c66mixture c.nF b.frac
  tc : ∀ i < c.nT, 0 ≤ b.tc i
  energy : 0 < b.energy

/-- The sizes of the arrays after initialization, with `m` compounds and `t` trace compounds in the interface, and
reasonable molecular weights. -/
structure c67Sized (m t : Nat) (l : Link K) : Prop where
  flow : l.workFlow.numFluid = l.cfg.nF ∧ l.workFlow.numTc = l.cfg.nT
  fluid : l.workFluid.numFluid = l.cfg.nF ∧ l.workFluid.numTc = l.cfg.nT
  out : l.bus.outD.numFluid = m ∧ l.bus.outD.numTc = t
  weights : c66weights l.cfg.nF l.cfg.mw

/-- The compounds that two networks and the interface between them all have. -/
def c67common (m : Nat) (a b : IfConfig K) : Nat := min (min a.nF m) b.nF

/-- The part of the fluid's moles that the common compounds are. -/
def c67carried (m : Nat) (a b : IfConfig K) (x : Body K) : K := ∑ i ∈ range (c67common m a b), c67mole a x i

/-- The other side can take the fluid: what arrives of the compounds is not next to nothing in comparison with the trace
compounds. -/
def c67Enough (m : Nat) (a b : IfConfig K) (x : Body K) : Prop :=
  dblEps * (1 + ∑ i ∈ range a.nT, x.tc i) ≤ c67carried m a b x

/-- A frame of one network: what is received, the forced role, what happens in the network, and its capacitance. -/
structure c67Frame (K : Type _) where
  recv : Data K
  role : Role
  solve : Link K → Link K
  cap : K

/-- The network does not change the volume of the node or the interface. -/
def c67Frame.keeps (f : c67Frame K) : Prop :=
  ∀ l, (f.solve l).volume = l.volume ∧ (f.solve l).edit = l.edit ∧ (f.solve l).supplyVolume = l.supplyVolume ∧
    (f.solve l).bus = l.bus

/-- A frame up to the step of the capacitor link. -/
def c67Frame.inputs (f : c67Frame K) (l : Link K) : Option (Link K) :=
  (Link.processInputs f.recv { l with bus := { l.bus with forced := f.role } }).map Link.editStep

/-- A frame. -/
def c67Frame.run (f : c67Frame K) (l : Link K) : Option (Link K) :=
  (f.inputs l).map (fun l => Link.processOutputs f.cap (f.solve l))

/-- Any number of frames, as long as nothing throws. -/
def c67run : List (c67Frame K) → Link K → Option (Link K)
  | [], l => some l
  | f :: fs, l => (f.run l).bind (c67run fs)

/-! ## Lemmas -/

private theorem flip_inD (b : Bus K) : (flipModesOnInput b).inD = b.inD := by
  unfold flipModesOnInput flipToDemandMode flipToSupplyMode
  simp only
  split_ifs <;> rfl

private theorem inputs_inD (b : Bus K) : (Interop.processInputs b).inD = b.inD := by
  unfold Interop.processInputs
  rw [flip_inD]
  rfl

private theorem copy_lt {n size : Nat} {f old : Nat → K} {i : Nat} (h : i < n) :
    copyFractions n f size old i = if i < size then f i else 0 := by
  unfold copyFractions
  by_cases hs : i < size
  · rw [if_pos (lt_min h hs), if_pos hs]
  · rw [if_neg (fun c => hs (lt_of_lt_of_le c (min_le_right _ _))), if_pos h, if_neg hs]

private theorem sum_trunc {w n : Nat} (h : w ≤ n) (f : Nat → K) :
    ∑ i ∈ range n, (if i < w then f i else 0) = ∑ i ∈ range w, f i := by
  rw [← Finset.sum_subset (Finset.range_subset_range.mpr h)]
  · exact Finset.sum_congr rfl fun i hi => if_pos (Finset.mem_range.mp hi)
  · intro i _ hn
    rw [if_neg]
    intro c
    exact hn (Finset.mem_range.mpr c)

private theorem mole_mixture {c : IfConfig K} {b : Body K} (hw : c66weights c.nF c.mw) (hb : c66mixture c.nF b.frac) :
    c66mixture c.nF (c67mole c b) := by
  have h := c66_weighted (mw := fun i => (c.mw i)⁻¹) (fun i hi => inv_pos.mpr (c66_weight_pos hw hi))
    (c66_mixture_amounts hb)
  simp only [← div_eq_mul_inv] at h
  exact c66_share_mixture h

private theorem output_eq {c : IfConfig K} {b : Body K} (hw : c66weights c.nF c.mw) (hb : c66mixture c.nF b.frac)
    (work : Given K) (hs : work.numFluid = c.nF ∧ work.numTc = c.nT) :
    let S := 1 + ∑ i ∈ range c.nT, b.tc i
    (outputFluid c b work).2 = S ∧ (outputFluid c b work).1.energy = b.energy ∧
    (outputFluid c b work).1.numFluid = c.nF ∧ (outputFluid c b work).1.numTc = c.nT ∧
    (∀ i < c.nF, (outputFluid c b work).1.fluid i = c67mole c b i / S) ∧
    ∀ i < c.nT, (outputFluid c b work).1.tc i = b.tc i / S := by
  intro S
  have hm : ∀ i < c.nF, massToMole c.nF c.mw b.frac (fun _ => 0) i = c67mole c b i := fun i hi =>
    c66_massToMole hw hb _ hi
  have hsum : total c.nT b.tc + total c.nF (massToMole c.nF c.mw b.frac (fun _ => 0)) = S := by
    rw [c66_total, c66_total, Finset.sum_congr rfl fun i hi => hm i (Finset.mem_range.mp hi),
      (mole_mixture hw hb).2, add_comm]
  refine ⟨hsum, rfl, hs.1, hs.2, fun i hi => ?_, fun i hi => ?_⟩
  · show copyFractions work.numFluid (fun i => massToMole c.nF c.mw b.frac (fun _ => 0) i / _) c.nF work.fluid i = _
    rw [hs.1, copy_lt hi, if_pos hi, hsum, hm i hi]
  · show copyFractions work.numTc (fun i => b.tc i / _) c.nT work.tc i = _
    rw [hs.2, copy_lt hi, if_pos hi, hsum]

/-- What arrives at the other side. -/
private theorem arrives {c c' : IfConfig K} {b : Body K} (hw : c66weights c.nF c.mw) (hb : c66mixture c.nF b.frac)
    {work : Given K} (hs : work.numFluid = c.nF ∧ work.numTc = c.nT) {v : K} {d : Data K} {m t : Nat}
    (hd : d.numFluid = m ∧ d.numTc = t) {g : Given K} (hg : g.numFluid = c'.nF ∧ g.numTc = c'.nT) {e : Data K}
    (he : e.source = v ∧ e.energy = b.energy ∧ e.numFluid = m ∧ e.numTc = t ∧
      e.fluid = (putState { (outputFluid c b work).1 with value := v } d).fluid ∧
      e.tc = (putState { (outputFluid c b work).1 with value := v } d).tc) :
    let S := 1 + ∑ i ∈ range c.nT, b.tc i
    (takeState e g).value = v ∧ (takeState e g).energy = b.energy ∧ (takeState e g).numFluid = c'.nF ∧
    (takeState e g).numTc = c'.nT ∧
    (∀ i < c'.nF, (takeState e g).fluid i = if i < c67common m c c' then c67mole c b i / S else 0) ∧
    ∀ i < c'.nT, (takeState e g).tc i = if i < min (min c.nT t) c'.nT then b.tc i / S else 0 := by
  intro S
  obtain ⟨-, -, o3, o4, o5, o6⟩ := output_eq hw hb work hs
  obtain ⟨e1, e2, e3, e4, e5, e6⟩ := he
  have w1 : ∀ i, i < m → e.fluid i = if i < c.nF then c67mole c b i / S else 0 := by
    intro i hi
    rw [e5]
    show copyFractions d.numFluid (outputFluid c b work).1.fluid (outputFluid c b work).1.numFluid d.fluid i = _
    rw [hd.1, copy_lt hi, o3]
    by_cases h : i < c.nF
    · rw [if_pos h, if_pos h, o5 i h]
    · rw [if_neg h, if_neg h]
  have w2 : ∀ i, i < t → e.tc i = if i < c.nT then b.tc i / S else 0 := by
    intro i hi
    rw [e6]
    show copyFractions d.numTc (outputFluid c b work).1.tc (outputFluid c b work).1.numTc d.tc i = _
    rw [hd.2, copy_lt hi, o4]
    by_cases h : i < c.nT
    · rw [if_pos h, if_pos h, o6 i h]
    · rw [if_neg h, if_neg h]
  refine ⟨e1, e2, hg.1, hg.2, fun i hi => ?_, fun i hi => ?_⟩
  · show copyFractions g.numFluid e.fluid e.numFluid g.fluid i = _
    rw [hg.1, copy_lt hi, e3]
    unfold c67common
    by_cases h : i < m
    · rw [if_pos h, w1 i h]
      by_cases h2 : i < c.nF
      · rw [if_pos h2, if_pos (lt_min (lt_min h2 h) hi)]
      · rw [if_neg h2, if_neg (fun q => h2 (lt_of_lt_of_le q ((min_le_left _ _).trans (min_le_left _ _))))]
    · rw [if_neg h, if_neg (fun q => h (lt_of_lt_of_le q ((min_le_left _ _).trans (min_le_right _ _))))]
  · show copyFractions g.numTc e.tc e.numTc g.tc i = _
    rw [hg.2, copy_lt hi, e4]
    by_cases h : i < t
    · rw [if_pos h, w2 i h]
      by_cases h2 : i < c.nT
      · rw [if_pos h2, if_pos (lt_min (lt_min h2 h) hi)]
      · rw [if_neg h2, if_neg (fun q => h2 (lt_of_lt_of_le q ((min_le_left _ _).trans (min_le_left _ _))))]
    · rw [if_neg h, if_neg (fun q => h (lt_of_lt_of_le q ((min_le_left _ _).trans (min_le_right _ _))))]

/-- What becomes of it there. -/
private theorem input_eq {c c' : IfConfig K} {b : Body K} (hw : c66weights c.nF c.mw) (hw' : c66weights c'.nF c'.mw)
    (hb : c67Proper c b) {m t : Nat} (hen : c67Enough m c c' b) {demand : Bool} {flow fluid : Given K} {old : Body K}
    (hn : (if demand then fluid else flow).numFluid = c'.nF ∧ (if demand then fluid else flow).numTc = c'.nT)
    (hf : ∀ i < c'.nF, (if demand then fluid else flow).fluid i = if i < c67common m c c' then
      c67mole c b i / (1 + ∑ i ∈ range c.nT, b.tc i) else 0)
    (ht : ∀ i < c'.nT, (if demand then fluid else flow).tc i = if i < min (min c.nT t) c'.nT then
      b.tc i / (1 + ∑ i ∈ range c.nT, b.tc i) else 0) (hz : fluid.numTc = c'.nT) :
    ∃ r, inputFluid c' demand flow fluid old = some r ∧
      r.2 = c67carried m c c' b / (1 + ∑ i ∈ range c.nT, b.tc i) ∧ r.1.energy = fluid.energy ∧
      c66mixture c'.nF r.1.frac ∧
      (∀ i < c'.nF, c67mole c' r.1 i * c67carried m c c' b = if i < c67common m c c' then c67mole c b i else 0) ∧
      ∀ i < c'.nT, r.1.tc i * c67carried m c c' b = if i < min (min c.nT t) c'.nT then b.tc i else 0 := by
  obtain ⟨S, hS⟩ : ∃ S, S = 1 + ∑ i ∈ range c.nT, b.tc i := ⟨_, rfl⟩
  obtain ⟨W, hW⟩ : ∃ W, W = c67carried m c c' b := ⟨_, rfl⟩
  rw [← hS] at hf ht ⊢
  have hS1 : 1 ≤ S := by
    rw [hS]
    have := Finset.sum_nonneg fun i hi => hb.tc i (Finset.mem_range.mp hi)
    linarith
  have hS0 : 0 < S := lt_of_lt_of_le one_pos hS1
  have hle : dblEps * S ≤ W := by rw [hS, hW]; exact hen
  have hW0 : 0 < W := lt_of_lt_of_le (mul_pos dblEps_pos hS0) hle
  have hcom : c67common m c c' ≤ c'.nF := min_le_right _ _
  obtain ⟨work, hwork⟩ : ∃ work, work = (if demand then fluid else flow) := ⟨_, rfl⟩
  rw [← hwork] at hf ht hn
  obtain ⟨mole, hmole⟩ : ∃ mole : Nat → K, mole = copyFractions c'.nF work.fluid work.numFluid (fun _ => 0) := ⟨_, rfl⟩
  have hm : ∀ i < c'.nF, mole i = if i < c67common m c c' then c67mole c b i / S else 0 := by
    intro i hi
    rw [hmole, copy_lt hi, hn.1, if_pos hi, hf i hi]
  have hsum : total c'.nF mole = W / S := by
    rw [c66_total, Finset.sum_congr rfl fun i hi => hm i (Finset.mem_range.mp hi), sum_trunc hcom, ← Finset.sum_div, hW]
    rfl
  have hge : ¬ W / S < dblEps := by
    rw [not_lt, le_div_iff₀ hS0]; exact hle
  have e : inputFluid c' demand flow fluid old = if total c'.nF mole < dblEps then none else
      some ({ frac := moleToMass c'.nF c'.mw (fun i => mole i / total c'.nF mole) (fun _ => 0)
              tc := if fluid.numTc = 0 then old.tc else
                fun i => copyFractions c'.nT work.tc work.numTc (fun _ => 0) i / total c'.nF mole
              energy := fluid.energy }, total c'.nF mole) := by
    rw [hmole, hwork]; rfl
  rw [hsum, if_neg hge] at e
  have hx := mole_mixture hw hb.mix
  have hcf : c67common m c c' ≤ c.nF := (min_le_left _ _).trans (min_le_left _ _)
  have hy : ∀ i < c'.nF, mole i / (W / S) = (if i < c67common m c c' then c67mole c b i else 0) / W := by
    intro i hi
    rw [hm i hi]
    split
    · field_simp
    · simp
  have hmix : c66mixture c'.nF (fun i => mole i / (W / S)) := by
    refine ⟨fun i hi => ?_, ?_⟩
    · show 0 ≤ mole i / (W / S)
      rw [hy i hi]
      refine div_nonneg ?_ hW0.le
      split
      · rename_i h; exact hx.1 i (lt_of_lt_of_le h hcf)
      · exact le_rfl
    · rw [← Finset.sum_div, ← c66_total, hsum, div_self (div_pos hW0 hS0).ne']
  have hr := c66_round_trip hw' hmix (fun _ => 0) (fun _ => 0)
  refine ⟨_, e, by rw [hW], rfl, hr.1, fun i hi => ?_, fun i hi => ?_⟩
  · rw [← hW]
    have h1 := c66_massToMole hw' hr.1 (fun _ => 0) hi
    have h2 := hr.2.2.1 i hi
    rw [h1] at h2
    show c66share c'.nF (fun k => moleToMass c'.nF c'.mw (fun i => mole i / (W / S)) (fun _ => 0) k / c'.mw k) i * W = _
    rw [h2, hy i hi, div_mul_cancel₀ _ hW0.ne']
  · rw [← hW]
    have hz0 : ¬ fluid.numTc = 0 := by rw [hz]; exact fun h => absurd hi (by rw [h]; exact Nat.not_lt_zero i)
    simp only [if_neg hz0]
    rw [copy_lt hi, hn.2, if_pos hi, ht i hi]
    split
    · field_simp
    · simp

private theorem valid_of {e : Data K} (h1 : 1 ≤ e.frame) (h2 : 0 < e.energy) (h3 : 0 ≤ e.cap)
    (h4 : 0 ≤ e.source ∨ e.demand = true) (h5 : ∀ i < e.numFluid, 0 ≤ e.fluid i) (h6 : ∀ i < e.numTc, 0 ≤ e.tc i) :
    e.valid = true := by
  unfold Data.valid
  rw [if_neg]
  · rw [Bool.and_eq_true, List.all_eq_true, List.all_eq_true]
    exact ⟨fun i hi => decide_eq_true (h5 i (List.mem_range.mp hi)), fun i hi => decide_eq_true (h6 i (List.mem_range.mp hi))⟩
  · rintro (h | h | h | ⟨h, hd⟩)
    · omega
    · linarith
    · linarith
    · rcases h4 with h4 | h4
      · linarith
      · rw [h4] at hd; cases hd

/-- The data sent are valid. -/
private theorem sent_valid {c : IfConfig K} {b : Body K} (hw : c66weights c.nF c.mw) (hb : c67Proper c b)
    {work : Given K} (hs : work.numFluid = c.nF ∧ work.numTc = c.nT) {v : K} {d : Data K} {e : Data K}
    (he : e.energy = b.energy ∧ e.numFluid = d.numFluid ∧ e.numTc = d.numTc ∧
      e.fluid = (putState { (outputFluid c b work).1 with value := v } d).fluid ∧
      e.tc = (putState { (outputFluid c b work).1 with value := v } d).tc)
    (h1 : 1 ≤ e.frame) (h3 : 0 ≤ e.cap) (h4 : 0 ≤ e.source ∨ e.demand = true) : e.valid = true := by
  obtain ⟨e2, e3, e4, e5, e6⟩ := he
  obtain ⟨-, -, o3, o4, o5, o6⟩ := output_eq hw hb.mix work hs
  have hS : 0 ≤ 1 + ∑ i ∈ range c.nT, b.tc i := by
    have := Finset.sum_nonneg fun i hi => hb.tc i (Finset.mem_range.mp hi)
    linarith
  refine valid_of h1 (by rw [e2]; exact hb.energy) h3 h4 (fun i hi => ?_) (fun i hi => ?_)
  · rw [e3] at hi
    rw [e5]
    show 0 ≤ copyFractions d.numFluid (outputFluid c b work).1.fluid (outputFluid c b work).1.numFluid d.fluid i
    rw [copy_lt hi, o3]
    split
    · rename_i h
      rw [o5 i h]
      exact div_nonneg ((mole_mixture hw hb.mix).1 i h) hS
    · exact le_rfl
  · rw [e4] at hi
    rw [e6]
    show 0 ≤ copyFractions d.numTc (outputFluid c b work).1.tc (outputFluid c b work).1.numTc d.tc i
    rw [copy_lt hi, o4]
    split
    · rename_i h
      rw [o6 i h]
      exact div_nonneg (hb.tc i h) hS
    · exact le_rfl

private theorem inputRole_frame (d : Data K) (l : Link K) :
    (inputRole d l).bus.inD = d ∧ (inputRole d l).cfg = l.cfg ∧ (inputRole d l).workFlow = l.workFlow ∧
    (inputRole d l).workFluid = l.workFluid ∧ (inputRole d l).content = l.content ∧
    (inputRole d l).internal = l.internal := by
  have h : (inputRole d l).bus.inD = d := by
    unfold inputRole
    simp only
    split_ifs <;> exact inputs_inD _
  refine ⟨h, ?_⟩
  unfold inputRole
  simp only
  split_ifs <;> exact ⟨rfl, rfl, rfl, rfl, rfl⟩

private theorem outputs_bus (cap : K) (l : Link K) :
    (Link.processOutputs cap l).bus = Interop.processOutputs cap (outputState l).bus := by
  unfold Link.processOutputs
  simp only
  split_ifs <;> rfl

private theorem outputs_supply {l : Link K} (h1 : l.bus.inDemand = false) (hf : l.bus.forced = .none) {cap : K}
    (h2 : (Link.processOutputs cap l).bus.inDemand = false) :
    (Link.processOutputs cap l).bus.outD = { putState { (outputFluid l.cfg l.content l.workFluid).1 with
        value := l.pressure * 1000 } l.bus.outD with
      cap := cap } := by
  obtain ⟨g, hg⟩ : ∃ g : Given K, g = { (outputFluid l.cfg l.content l.workFluid).1 with
      value := l.pressure * 1000 } := ⟨_, rfl⟩
  have e : (outputState l).bus = { l.bus with outD := putState g l.bus.outD } := by
    have e1 : outputState l = _ := if_neg (by rw [h1]; exact Bool.false_ne_true)
    rw [e1, hg]
    exact if_neg (by rw [h1]; exact Bool.false_ne_true)
  rw [outputs_bus, e] at h2 ⊢
  rw [← hg]
  rw [outputs_spec (c := { l.bus with outD := putState g l.bus.outD }) hf] at h2 ⊢
  by_cases hc : (putState g l.bus.outD).demand = false ∧ l.bus.latency < l.bus.since ∧ cap * ratio < l.bus.inD.cap
  · rw [if_pos hc] at h2
    exact absurd h2 (by intro q; cases q)
  · rw [if_neg hc]

private theorem outputs_demand {l : Link K} (h1 : l.bus.inDemand = true) (cap : K) :
    (Link.processOutputs cap l).bus.outD = { putState { (outputFluid l.cfg (useFluid l) l.workFlow).1 with
        value := l.flux * 1000 * (outputFluid l.cfg (useFluid l) l.workFlow).2 } l.bus.outD with
      cap := cap } := by
  obtain ⟨g, hg⟩ : ∃ g : Given K, g = { (outputFluid l.cfg (useFluid l) l.workFlow).1 with
      value := l.flux * 1000 * (outputFluid l.cfg (useFluid l) l.workFlow).2 } := ⟨_, rfl⟩
  have e : (outputState l).bus = { l.bus with outD := putState g l.bus.outD } := by
    have e1 : outputState l = _ := if_pos h1
    rw [e1, hg]
    exact if_neg (by rw [h1]; exact fun h => by cases h)
  rw [outputs_bus, e, ← hg]
  have e2 : Interop.processOutputs cap { l.bus with outD := putState g l.bus.outD } = _ :=
    if_neg (show ¬ l.bus.inDemand = false by rw [h1]; exact fun h => by cases h)
  rw [e2]

/-! ## Theorems -/

/-- The demand side, being in its role, gets the fluid of the supply side's node: its temperature, the pressure, and of the
compounds and trace compounds both have, the same proportions; the fractions of the compounds add up to one again. -/
theorem c67_state {m t : Nat} {s d : Link K} (hs : c67Sized m t s) (hd : c67Sized m t d)
    (hb : c67Proper s.cfg s.content) (hp : 0 ≤ s.pressure) (hfr : 1 ≤ s.bus.outD.frame)
    (h1 : s.bus.inDemand = false) (hf : s.bus.forced = .none) {cap : K} (hcap : 0 ≤ cap)
    (h2 : (Link.processOutputs cap s).bus.inDemand = false) (hen : c67Enough m s.cfg d.cfg s.content)
    (hrole : (inputRole (Link.processOutputs cap s).bus.outD d).bus.inDemand = true) :
    ∃ r, Link.processInputs (Link.processOutputs cap s).bus.outD d = some r ∧
      r.content.energy = s.content.energy ∧ r.sourcePressure = s.pressure ∧ r.demandFlux = 0 ∧
      c66mixture d.cfg.nF r.content.frac ∧
      (∀ i < d.cfg.nF, c67mole d.cfg r.content i * c67carried m s.cfg d.cfg s.content =
        if i < c67common m s.cfg d.cfg then c67mole s.cfg s.content i else 0) ∧
      ∀ i < d.cfg.nT, r.content.tc i * c67carried m s.cfg d.cfg s.content =
        if i < min (min s.cfg.nT t) d.cfg.nT then s.content.tc i else 0 := by
  obtain ⟨e, he⟩ : ∃ e, e = (Link.processOutputs cap s).bus.outD := ⟨_, rfl⟩
  have heo := outputs_supply h1 hf h2
  rw [← he] at hrole heo ⊢
  obtain ⟨q1, q2, q3, q4, q5, q6⟩ := inputRole_frame e d
  obtain ⟨p, hp'⟩ : ∃ p, p = inputRole e d := ⟨_, rfl⟩
  rw [← hp'] at hrole q1 q2 q3 q4 q5 q6
  have hnd : e.demand = false := by rw [heo]; exact h1
  have hv : e.valid = true := sent_valid hs.weights hb hs.fluid (v := s.pressure * 1000) (d := s.bus.outD)
    (by rw [heo]; exact ⟨rfl, rfl, rfl, rfl, rfl⟩) (by rw [heo]; exact hfr) (by rw [heo]; exact hcap)
    (Or.inl (by rw [heo]; exact mul_nonneg hp (by norm_num)))
  obtain ⟨a1, a2, a3, a4, a5, a6⟩ := arrives (c' := d.cfg) hs.weights hb.mix hs.fluid (v := s.pressure * 1000) (d := s.bus.outD)
    (m := m) (t := t) hs.out hd.fluid (e := e) (by rw [heo]; exact ⟨rfl, rfl, hs.out.1, hs.out.2, rfl, rfl⟩)
  obtain ⟨r, hr, -, r3, r4, r5, r6⟩ := input_eq hs.weights hd.weights hb hen (t := t) (demand := true) (flow := d.workFlow)
    (fluid := takeState e d.workFluid) (old := d.content) ⟨a3, a4⟩ a5 a6 a4
  have hget : getFluidState p.bus p.workFluid = some (takeState e d.workFluid) := by
    unfold getFluidState
    rw [q1, q4, if_pos ⟨hrole, hv, hnd⟩]
  have hin : processInputsDemand p = some { p with
      workFluid := takeState e d.workFluid
      sourcePressure := (takeState e d.workFluid).value * (1 / 1000)
      content := r.1 } := by
    unfold processInputsDemand
    rw [if_pos hrole, hget]
    simp only
    rw [q2, q3, q5, hr]
  have hfin : Link.processInputs e d = some { p with
      workFluid := takeState e d.workFluid
      sourcePressure := (takeState e d.workFluid).value * (1 / 1000)
      content := r.1
      demandFlux := 0 } := by
    unfold Link.processInputs
    rw [← hp', hin]
    exact if_neg (show ¬ p.bus.inDemand = false by rw [hrole]; exact fun h => by cases h)
  refine ⟨_, hfin, ?_, ?_, rfl, r4, r5, r6⟩
  · show r.1.energy = _
    rw [r3, a2]
  · show (takeState e d.workFluid).value * (1 / 1000) = _
    rw [a1]
    ring

/-- The supply side, being in its role, takes from its node what the demand side put into its own: of every compound and
every trace compound that both have, the flow of the one is the opposite of the other. -/
theorem c67_flow {m t : Nat} {d s : Link K} (hd : c67Sized m t d) (hs : c67Sized m t s)
    (hb : c67Proper d.cfg (useFluid d)) (hfr : 1 ≤ d.bus.outD.frame) (h1 : d.bus.inDemand = true) {cap : K} (hcap : 0 ≤ cap)
    (hen : c67Enough m d.cfg s.cfg (useFluid d))
    (hrole : (inputRole (Link.processOutputs cap d).bus.outD s).bus.inDemand = false) :
    ∃ r, Link.processInputs (Link.processOutputs cap d).bus.outD s = some r ∧ r.sourcePressure = 0 ∧
      r.content = s.content ∧ r.demandFlux = -(d.flux * c67carried m d.cfg s.cfg (useFluid d)) ∧
      c66mixture s.cfg.nF r.internal.frac ∧
      (∀ i < s.cfg.nF, r.demandFlux * c67mole s.cfg r.internal i =
        if i < c67common m d.cfg s.cfg then -(d.flux * c67mole d.cfg (useFluid d) i) else 0) ∧
      ∀ i < s.cfg.nT, r.demandFlux * r.internal.tc i =
        if i < min (min d.cfg.nT t) s.cfg.nT then -(d.flux * (useFluid d).tc i) else 0 := by
  obtain ⟨e, he⟩ : ∃ e, e = (Link.processOutputs cap d).bus.outD := ⟨_, rfl⟩
  have heo := outputs_demand h1 cap
  rw [← he] at hrole heo ⊢
  obtain ⟨b, hbb⟩ : ∃ b, b = useFluid d := ⟨_, rfl⟩
  rw [← hbb] at heo hb hen ⊢
  obtain ⟨q1, q2, q3, q4, q5, q6⟩ := inputRole_frame e s
  obtain ⟨p, hp'⟩ : ∃ p, p = inputRole e s := ⟨_, rfl⟩
  rw [← hp'] at hrole q1 q2 q3 q4 q5 q6
  have hnd : e.demand = true := by rw [heo]; exact h1
  obtain ⟨v, hval⟩ : ∃ v, v = d.flux * 1000 * (outputFluid d.cfg b d.workFlow).2 := ⟨_, rfl⟩
  rw [← hval] at heo
  have hv : e.valid = true := sent_valid hd.weights hb hd.flow (v := v) (d := d.bus.outD)
    (by rw [heo]; exact ⟨rfl, rfl, rfl, rfl, rfl⟩) (by rw [heo]; exact hfr) (by rw [heo]; exact hcap) (Or.inr hnd)
  obtain ⟨a1, a2, a3, a4, a5, a6⟩ := arrives (c' := s.cfg) hd.weights hb.mix hd.flow (v := v) (d := d.bus.outD)
    (m := m) (t := t) hd.out hs.flow (e := e) (by rw [heo]; exact ⟨rfl, rfl, hd.out.1, hd.out.2, rfl, rfl⟩)
  obtain ⟨r, hr, r2, r3, r4, r5, r6⟩ := input_eq hd.weights hs.weights hb hen (t := t) (demand := false)
    (flow := takeState e s.workFlow) (fluid := s.workFluid) (old := s.internal) ⟨a3, a4⟩ a5 a6 hs.fluid.2
  have hget : getFlowState p.bus p.workFlow = some (takeState e s.workFlow) := by
    unfold getFlowState
    rw [q1, q3, if_pos ⟨hrole, hv, hnd⟩]
  have hfin : Link.processInputs e s = some { p with
      workFlow := takeState e s.workFlow
      sourcePressure := 0
      internal := r.1
      demandFlux := -e.source * (1 / 1000) * r.2 } := by
    unfold Link.processInputs
    have e1 : processInputsDemand p = some p := if_neg (by rw [hrole]; exact Bool.false_ne_true)
    rw [← hp', e1]
    show processInputsSupply p = _
    unfold processInputsSupply
    rw [if_pos hrole, hget]
    simp only
    rw [q2, q4, q6, hr]
    simp only [q1]
  have hS : 0 < 1 + ∑ i ∈ range d.cfg.nT, b.tc i := by
    have := Finset.sum_nonneg fun i hi => hb.tc i (Finset.mem_range.mp hi)
    linarith
  have hflux : -e.source * (1 / 1000) * r.2 = -(d.flux * c67carried m d.cfg s.cfg b) := by
    have h3 : e.source = v := by rw [heo]; rfl
    rw [h3, hval, (output_eq hd.weights hb.mix d.workFlow hd.flow).1, r2]
    field_simp
  refine ⟨_, hfin, rfl, q5, hflux, r4, fun i hi => ?_, fun i hi => ?_⟩
  · show -e.source * (1 / 1000) * r.2 * c67mole s.cfg r.1 i = _
    have h := r5 i hi
    rw [hflux]
    split at h
    · rename_i hlt; rw [if_pos hlt, ← h]; ring
    · rename_i hlt; rw [if_neg hlt]; linear_combination (-d.flux) * h
  · show -e.source * (1 / 1000) * r.2 * r.1.tc i = _
    have h := r6 i hi
    rw [hflux]
    split at h
    · rename_i hlt; rw [if_pos hlt, ← h]; ring
    · rename_i hlt; rw [if_neg hlt]; linear_combination (-d.flux) * h

private theorem frac_of_mole {c : IfConfig K} {a b : Body K} (hw : c66weights c.nF c.mw) (ha : c66mixture c.nF a.frac)
    (hb : c66mixture c.nF b.frac) (h : ∀ i < c.nF, c67mole c a i = c67mole c b i) {i : Nat} (hi : i < c.nF) :
    a.frac i = b.frac i := by
  have key : ∀ x : Body K, c66mixture c.nF x.frac → c66share c.nF (fun k => c67mole c x k * c.mw k) i = x.frac i := by
    intro x hx
    have hsum : 0 < ∑ k ∈ range c.nF, x.frac k / c.mw k := by
      have h := c66_weighted (mw := fun i => (c.mw i)⁻¹) (fun i hi => inv_pos.mpr (c66_weight_pos hw hi))
        (c66_mixture_amounts hx)
      simp only [← div_eq_mul_inv] at h
      exact h.2
    rw [← c66_mixture_share hx i]
    refine c66_share_scale (inv_ne_zero hsum.ne') (fun k hk => ?_) hi
    have := (c66_weight_pos hw hk).ne'
    unfold c67mole c66share
    field_simp
  rw [← key a ha, ← key b hb]
  refine c66_share_scale one_ne_zero (fun k hk => ?_) hi
  rw [h k hk, one_mul]

private theorem same_common {m : Nat} {a b : IfConfig K} (hab : b = a) (hm : a.nF ≤ m) : c67common m a b = a.nF := by
  unfold c67common
  rw [hab, min_eq_left hm, min_self]

private theorem same_carried {m : Nat} {a b : IfConfig K} (hab : b = a) (hm : a.nF ≤ m) {x : Body K}
    (hw : c66weights a.nF a.mw) (hx : c66mixture a.nF x.frac) : c67carried m a b x = 1 := by
  unfold c67carried
  rw [same_common hab hm]
  exact (mole_mixture hw hx).2

/-- With the same fluids in both networks and in the interface, the demand side gets the same fluid. -/
theorem c67_same_state {m t : Nat} {s d : Link K} (hs : c67Sized m t s) (hd : c67Sized m t d) (hcfg : d.cfg = s.cfg)
    (hm : s.cfg.nF ≤ m) (ht : s.cfg.nT ≤ t) (hb : c67Proper s.cfg s.content)
    (htc : dblEps * (1 + ∑ i ∈ range s.cfg.nT, s.content.tc i) ≤ 1) (hp : 0 ≤ s.pressure) (hfr : 1 ≤ s.bus.outD.frame)
    (h1 : s.bus.inDemand = false) (hf : s.bus.forced = .none) {cap : K} (hcap : 0 ≤ cap)
    (h2 : (Link.processOutputs cap s).bus.inDemand = false)
    (hrole : (inputRole (Link.processOutputs cap s).bus.outD d).bus.inDemand = true) :
    ∃ r, Link.processInputs (Link.processOutputs cap s).bus.outD d = some r ∧
      r.content.energy = s.content.energy ∧ r.sourcePressure = s.pressure ∧
      (∀ i < s.cfg.nF, r.content.frac i = s.content.frac i) ∧ ∀ i < s.cfg.nT, r.content.tc i = s.content.tc i := by
  have hc := same_carried hcfg hm hs.weights hb.mix
  have hen : c67Enough m s.cfg d.cfg s.content := by
    unfold c67Enough
    rw [hc]; exact htc
  obtain ⟨r, hr, r1, r2, -, r4, r5, r6⟩ := c67_state hs hd hb hp hfr h1 hf hcap h2 hen hrole
  rw [hc, same_common hcfg hm, hcfg] at r5
  rw [hc, hcfg] at r6
  rw [hcfg] at r4
  refine ⟨r, hr, r1, r2, fun i hi => frac_of_mole hs.weights r4 hb.mix (fun k hk => ?_) hi, fun i hi => ?_⟩
  · have := r5 k hk
    rwa [mul_one, if_pos hk] at this
  · have := r6 i hi
    rwa [mul_one, if_pos (by rw [min_eq_left ht, min_self]; exact hi)] at this

/-- With the same fluids in both networks and in the interface, the supply side takes exactly the flow that the demand side
sent, with the same fractions. -/
theorem c67_same_flow {m t : Nat} {d s : Link K} (hd : c67Sized m t d) (hs : c67Sized m t s) (hcfg : s.cfg = d.cfg)
    (hm : d.cfg.nF ≤ m) (ht : d.cfg.nT ≤ t) (hb : c67Proper d.cfg (useFluid d))
    (htc : dblEps * (1 + ∑ i ∈ range d.cfg.nT, (useFluid d).tc i) ≤ 1) (hfr : 1 ≤ d.bus.outD.frame)
    (h1 : d.bus.inDemand = true) {cap : K} (hcap : 0 ≤ cap) (hx : d.flux ≠ 0)
    (hrole : (inputRole (Link.processOutputs cap d).bus.outD s).bus.inDemand = false) :
    ∃ r, Link.processInputs (Link.processOutputs cap d).bus.outD s = some r ∧ r.demandFlux = -d.flux ∧
      (∀ i < d.cfg.nF, r.internal.frac i = (useFluid d).frac i) ∧ ∀ i < d.cfg.nT, r.internal.tc i = (useFluid d).tc i := by
  have hc := same_carried hcfg hm hd.weights hb.mix
  have hen : c67Enough m d.cfg s.cfg (useFluid d) := by
    unfold c67Enough
    rw [hc]; exact htc
  obtain ⟨r, hr, -, -, r3, r4, r5, r6⟩ := c67_flow hd hs hb hfr h1 hcap hen hrole
  rw [hc, mul_one] at r3
  rw [r3, same_common hcfg hm, hcfg] at r5
  rw [r3, hcfg] at r6
  rw [hcfg] at r4
  refine ⟨r, hr, r3, fun i hi => frac_of_mole hd.weights r4 hb.mix (fun k hk => ?_) hi, fun i hi => ?_⟩
  · have := r5 k hk
    rw [if_pos hk, ← neg_mul] at this
    exact mul_left_cancel₀ (neg_ne_zero.mpr hx) this
  · have := r6 i hi
    rw [if_pos (by rw [min_eq_left ht, min_self]; exact hi), ← neg_mul] at this
    exact mul_left_cancel₀ (neg_ne_zero.mpr hx) this

private theorem input_energy {c : IfConfig K} {demand : Bool} {flow fluid : Given K} {old : Body K} {x : Body K × K}
    (h : inputFluid c demand flow fluid old = some x) : x.1.energy = fluid.energy := by
  have e : ∃ (a : K) (y : Body K × K), y.1.energy = fluid.energy ∧
      inputFluid c demand flow fluid old = if a < dblEps then none else some y := ⟨_, _, rfl, rfl⟩
  obtain ⟨a, y, hy, e⟩ := e
  rw [e] at h
  by_cases ha : a < dblEps
  · rw [if_pos ha] at h; cases h
  · rw [if_neg ha] at h
    rw [← Option.some.inj h]; exact hy

/-- The temperature does not come back: whatever the demand side sends, the supply side gives the fluid its own last
temperature. -/
theorem c67_back_energy {s r : Link K} {cap : K} (h1 : s.bus.inDemand = false) {l : Link K}
    (hl : l.workFluid = (Link.processOutputs cap s).workFluid) {e : Data K} (hr : Link.processInputs e l = some r)
    (h2 : r.bus.inDemand = false) (h3 : e.valid = true) (h4 : e.demand = true) :
    r.internal.energy = s.content.energy := by
  have hw : l.workFluid.energy = s.content.energy := by
    rw [hl]
    have e2 : (Link.processOutputs cap s).workFluid = (outputState s).workFluid := by
      unfold Link.processOutputs
      simp only
      split_ifs <;> rfl
    have e1 : outputState s = _ := if_neg (by rw [h1]; exact Bool.false_ne_true)
    rw [e2, e1]
    rfl
  obtain ⟨q1, q2, q3, q4, q5, q6⟩ := inputRole_frame e l
  obtain ⟨p, hp⟩ : ∃ p, p = inputRole e l := ⟨_, rfl⟩
  rw [← hp] at q1 q2 q3 q4 q5 q6
  unfold Link.processInputs at hr
  rw [← hp] at hr
  by_cases hd : p.bus.inDemand = true
  · have e1 : processInputsDemand p = some { p with sourcePressure := p.pressure } := by
      unfold processInputsDemand
      rw [if_pos hd]
      have : getFluidState p.bus p.workFluid = none := by
        unfold getFluidState
        rw [q1, h4, if_neg]
        rintro ⟨-, -, h⟩; cases h
      rw [this]
    rw [e1] at hr
    have e2 : processInputsSupply { p with sourcePressure := p.pressure } = some { p with
        sourcePressure := p.pressure
        demandFlux := 0 } := if_neg (by rw [show (_ : Bool) = true from hd]; exact fun h => by cases h)
    have hr : processInputsSupply { p with sourcePressure := p.pressure } = some r := hr
    rw [e2] at hr
    have : r.bus.inDemand = true := by
      rw [← Option.some.inj hr]; exact hd
    rw [h2] at this; cases this
  · have hd' : p.bus.inDemand = false := by simpa using hd
    have e1 : processInputsDemand p = some p := if_neg hd
    rw [e1] at hr
    have hr : processInputsSupply p = some r := hr
    unfold processInputsSupply at hr
    have hg : getFlowState p.bus p.workFlow = some (takeState e p.workFlow) := by
      unfold getFlowState
      rw [q1, if_pos ⟨hd', h3, h4⟩]
    rw [if_pos hd', hg] at hr
    simp only at hr
    split at hr
    · rename_i x hx
      rw [← Option.some.inj hr]
      show x.1.energy = _
      rw [input_energy hx, q4, hw]
    · cases hr

/-! ### The volume of the node -/

private theorem inputs_frame {e : Data K} {l r : Link K} (h : Link.processInputs e l = some r) :
    r.bus = (inputRole e l).bus ∧ r.volume = (inputRole e l).volume ∧ r.edit = (inputRole e l).edit ∧
    r.supplyVolume = (inputRole e l).supplyVolume := by
  unfold Link.processInputs at h
  obtain ⟨p, hp⟩ : ∃ p, p = inputRole e l := ⟨_, rfl⟩
  rw [← hp] at h ⊢
  have k1 : ∀ q, processInputsDemand p = some q → q.bus = p.bus ∧ q.volume = p.volume ∧ q.edit = p.edit ∧
      q.supplyVolume = p.supplyVolume := by
    intro q hq
    unfold processInputsDemand at hq
    split at hq
    · split at hq
      · split at hq
        · rw [← Option.some.inj hq]; exact ⟨rfl, rfl, rfl, rfl⟩
        · cases hq
      · rw [← Option.some.inj hq]; exact ⟨rfl, rfl, rfl, rfl⟩
    · rw [← Option.some.inj hq]; exact ⟨rfl, rfl, rfl, rfl⟩
  have k2 : ∀ p q : Link K, processInputsSupply p = some q → q.bus = p.bus ∧ q.volume = p.volume ∧ q.edit = p.edit ∧
      q.supplyVolume = p.supplyVolume := by
    intro p q hq
    unfold processInputsSupply at hq
    split at hq
    · split at hq
      · split at hq
        · rw [← Option.some.inj hq]; exact ⟨rfl, rfl, rfl, rfl⟩
        · cases hq
      · rw [← Option.some.inj hq]; exact ⟨rfl, rfl, rfl, rfl⟩
    · rw [← Option.some.inj hq]; exact ⟨rfl, rfl, rfl, rfl⟩
  cases hq : processInputsDemand p with
  | none => rw [hq] at h; cases h
  | some q =>
    rw [hq] at h
    have a := k1 q hq
    have b := k2 q r h
    exact ⟨b.1.trans a.1, b.2.1.trans a.2.1, b.2.2.1.trans a.2.2.1, b.2.2.2.trans a.2.2.2⟩

/-- Between frames. -/
private def VolumeInv (V : K) (l : Link K) : Prop :=
  (l.bus.inDemand = false → l.edit = none ∧ l.volume = V) ∧
  (l.bus.inDemand = true → l.supplyVolume = V ∧ (l.edit = some 0 ∨ l.edit = none ∧ l.volume = 0))

private theorem volume_inputs {V : K} {f : c67Frame K} {l r : Link K} (hl : VolumeInv V l) (h : f.inputs l = some r) :
    r.edit = none ∧ (r.bus.inDemand = false → r.volume = V) ∧
    (r.bus.inDemand = true → r.volume = 0 ∧ r.supplyVolume = V) := by
  unfold c67Frame.inputs at h
  obtain ⟨l', hl'⟩ : ∃ l' : Link K, l' = { l with bus := { l.bus with forced := f.role } } := ⟨_, rfl⟩
  rw [← hl'] at h
  obtain ⟨q, hq, hr⟩ := Option.map_eq_some_iff.mp h
  have hi : VolumeInv V l' := by rw [hl']; exact hl
  obtain ⟨a1, a2, a3, a4⟩ := inputs_frame hq
  obtain ⟨b, hb⟩ : ∃ b, b = Interop.processInputs { l'.bus with inD := f.recv } := ⟨_, rfl⟩
  have e : inputRole f.recv l' = if b.inDemand = true ∧ l'.bus.inDemand = false then { l' with
      bus := b
      supplyVolume := l'.volume
      edit := some 0 }
    else if l'.bus.inDemand = true ∧ b.inDemand = false then { l' with
      bus := b
      edit := some l'.supplyVolume
      supplyVolume := 0 }
    else { l' with bus := b } := by rw [hb]; rfl
  rw [e] at a1 a2 a3 a4
  rw [← hr]
  have he : (Link.editStep q).edit = none ∧ (Link.editStep q).bus = q.bus ∧
      (Link.editStep q).supplyVolume = q.supplyVolume ∧ (Link.editStep q).volume = q.edit.getD q.volume := by
    unfold Link.editStep
    cases hqe : q.edit with
    | none => exact ⟨hqe, rfl, rfl, rfl⟩
    | some v => exact ⟨rfl, rfl, rfl, rfl⟩
  obtain ⟨e1, e2, e3, e4⟩ := he
  refine ⟨e1, ?_⟩
  rw [e2, e3, e4, a2, a3, a4, a1]
  by_cases c1 : b.inDemand = true ∧ l'.bus.inDemand = false
  · simp only [if_pos c1]
    refine ⟨fun h => ?_, fun _ => ⟨rfl, (hi.1 c1.2).2⟩⟩
    rw [c1.1] at h; cases h
  · simp only [if_neg c1]
    by_cases c2 : l'.bus.inDemand = true ∧ b.inDemand = false
    · simp only [if_pos c2]
      refine ⟨fun _ => (hi.2 c2.1).1, fun h => ?_⟩
      rw [c2.2] at h; cases h
    · simp only [if_neg c2]
      refine ⟨fun h => ?_, fun h => ?_⟩
      · have hd : l'.bus.inDemand = false := by
          by_contra hc
          exact c2 ⟨by simpa using hc, h⟩
        rw [(hi.1 hd).1]
        exact (hi.1 hd).2
      · have hd : l'.bus.inDemand = true := by
          by_contra hc
          exact c1 ⟨h, by simpa using hc⟩
        refine ⟨?_, (hi.2 hd).1⟩
        rcases (hi.2 hd).2 with h | ⟨h, hv⟩
        · rw [h]; rfl
        · rw [h]; exact hv

private theorem volume_frame {V : K} {f : c67Frame K} (hf : f.keeps) {l r : Link K} (hl : VolumeInv V l)
    (h : f.run l = some r) : VolumeInv V r := by
  obtain ⟨q, hq, hr⟩ := Option.map_eq_some_iff.mp h
  obtain ⟨a1, a2, a3⟩ := volume_inputs hl hq
  obtain ⟨k1, k2, k3, k4⟩ := hf q
  obtain ⟨p, hp⟩ : ∃ p, p = f.solve q := ⟨_, rfl⟩
  rw [← hp] at k1 k2 k3 k4 hr
  rw [← hr]
  rw [← k2] at a1
  rw [← k1, ← k4] at a2
  rw [← k1, ← k3, ← k4] at a3
  have ho : (outputState p).volume = p.volume ∧ (outputState p).edit = p.edit ∧
      (outputState p).supplyVolume = p.supplyVolume ∧ (outputState p).bus.inDemand = p.bus.inDemand := by
    unfold outputState
    simp only
    split
    · rename_i hd
      refine ⟨rfl, rfl, rfl, ?_⟩
      unfold setFlowState
      rw [if_neg (by rw [hd]; exact fun h => by cases h)]
      rfl
    · rename_i hd
      refine ⟨rfl, rfl, rfl, ?_⟩
      unfold setFluidState
      rw [if_neg hd]
      rfl
  obtain ⟨o, hoo⟩ : ∃ o, o = outputState p := ⟨_, rfl⟩
  rw [← hoo] at ho
  obtain ⟨o1, o2, o3, o4⟩ := ho
  rw [← o4, ← o1] at a2
  rw [← o4, ← o1, ← o3] at a3
  rw [← o2] at a1
  have e : Link.processOutputs f.cap p = if (Interop.processOutputs f.cap o.bus).inDemand = true ∧ o.bus.inDemand = false
      then { o with
        bus := Interop.processOutputs f.cap o.bus
        supplyVolume := o.volume
        edit := some 0 }
      else { o with bus := Interop.processOutputs f.cap o.bus } := by rw [hoo]; rfl
  have hstay : o.bus.inDemand = true → (Interop.processOutputs f.cap o.bus).inDemand = true := by
    intro hd
    have e2 : Interop.processOutputs f.cap o.bus = _ :=
      if_neg (show ¬ o.bus.inDemand = false by rw [hd]; exact fun h => by cases h)
    rw [e2]; exact hd
  rw [e]
  by_cases c : (Interop.processOutputs f.cap o.bus).inDemand = true ∧ o.bus.inDemand = false
  · rw [if_pos c]
    refine ⟨fun h => ?_, fun _ => ⟨a2 c.2, Or.inl rfl⟩⟩
    rw [show (_ : Bool) = true from c.1] at h; cases h
  · rw [if_neg c]
    refine ⟨fun h => ?_, fun h => ?_⟩
    · have hd : o.bus.inDemand = false := by
        by_contra hc
        have := hstay (by simpa using hc)
        rw [show (_ : Bool) = false from h] at this; cases this
      exact ⟨a1, a2 hd⟩
    · have hd : o.bus.inDemand = true := by
        by_contra hc
        exact c ⟨h, by simpa using hc⟩
      exact ⟨(a3 hd).2, Or.inr ⟨a1, (a3 hd).1⟩⟩

/-- Through any history of changing roles, the node has its own volume in the supply role, and none in the demand role. -/
theorem c67_volume {l₀ l r : Link K} (h0 : l₀.bus.inDemand = false) (he : l₀.edit = none) {fs : List (c67Frame K)}
    (hfs : ∀ f ∈ fs, f.keeps) (hl : c67run fs l₀ = some l) {f : c67Frame K} (hr : f.inputs l = some r) :
    r.volume = if r.bus.inDemand = true then 0 else l₀.volume := by
  have hinv : ∀ (fs : List (c67Frame K)) (a : Link K), (∀ f ∈ fs, f.keeps) → VolumeInv l₀.volume a →
      ∀ b, c67run fs a = some b → VolumeInv l₀.volume b := by
    intro fs
    induction fs with
    | nil => intro a _ ha b hb; rw [← Option.some.inj hb]; exact ha
    | cons f fs ih =>
      intro a hk ha b hb
      obtain ⟨q, hq, hb⟩ := Option.bind_eq_some_iff.mp hb
      exact ih q (fun g hg => hk g (List.mem_cons_of_mem _ hg)) (volume_frame (hk f List.mem_cons_self) ha hq) b hb
  have hi := hinv fs l₀ hfs ⟨fun _ => ⟨he, rfl⟩, fun h => by rw [h0] at h; cases h⟩ l hl
  obtain ⟨-, a2, a3⟩ := volume_inputs hi hr
  by_cases hd : r.bus.inDemand = true
  · rw [if_pos hd]; exact (a3 hd).1
  · rw [if_neg hd]; exact a2 (by simpa using hd)

/-! ### Conductance and capacitance -/

private theorem gain_range (dt : K) (b : Bus K) :
    0 ≤ (computeDemandLimit dt 0 b).gain ∧ (computeDemandLimit dt 0 b).gain ≤ 1 := by
  by_cases h : b.inDemand = true ∧ b.inD.demand = false ∧ dblEps < dt ∧ dblEps < b.outD.cap ∧ dblEps < b.inD.cap
  · obtain ⟨h1, h2, h3, h4, h5⟩ := h
    have := c33_demand_limit dt 0 0 b h1 h2 h3 h4 h5
    exact ⟨this.1.le, this.2.1⟩
  · have e : computeDemandLimit dt 0 b = _ := if_neg h
    rw [e]
    exact ⟨le_rfl, zero_le_one⟩

private theorem block_le {on : Bool} {v c : K} (h0 : 0 ≤ v) (h1 : v ≤ 1) (hc : 0 ≤ c) :
    0 ≤ (if on = true then c * (1 - v) else c) ∧ (if on = true then c * (1 - v) else c) ≤ c := by
  split
  · exact ⟨mul_nonneg hc (by linarith), by nlinarith⟩
  · exact ⟨hc, le_rfl⟩

/-- The demand side never draws more than what brings the supply's pressure down to its own: the flow of one step is at
most the supply's capacitance times the difference of the pressures, whatever the options, the limit and the blockage. The
supply side's flow is the one it got. -/
theorem c67_supply_limit {option : Bool} {limit dt : K} {block : Block K} {b : Bus K} (hl : 0 ≤ limit)
    (h0 : 0 ≤ block.value) (h1 : block.value ≤ 1) (hc : 0 ≤ b.inD.cap) :
    let A := admittance option limit dt block b
    0 ≤ A ∧ A ≤ limit ∧ (dblEps < dt → A * dt ≤ b.inD.cap) ∧ (b.inDemand = false → A = 0) ∧
    ∀ (l : Link K) (p : K), linkFlux A p l = A * (l.sourcePressure - p) + l.demandFlux := by
  intro A
  have hE := dblEps_pos (K := K)
  have hA : A = max (min (effectiveConductivity option dt block b) limit) 0 := rfl
  refine ⟨by rw [hA]; exact le_max_right _ _, by rw [hA]; exact max_le (min_le_right _ _) hl, fun hdt => ?_, fun hd => ?_,
    fun l p => ?_⟩
  · have hdt0 : 0 < dt := hE.trans hdt
    have key : effectiveConductivity option dt block b ≤ b.inD.cap / dt := by
      have hcd : 0 ≤ b.inD.cap / dt := div_nonneg hc hdt0.le
      by_cases hd : b.inDemand = true ∧ dt > dblEps
      · obtain ⟨g, hg⟩ : ∃ g, g = (computeDemandLimit dt 0 b).gain := ⟨_, rfl⟩
        obtain ⟨g0, g1⟩ := gain_range dt b
        rw [← hg] at g0 g1
        have e : effectiveConductivity option dt block b = _ := if_pos hd
        rw [e]
        simp only [← hg]
        have hcond : 0 ≤ g * b.inD.cap / dt := div_nonneg (mul_nonneg g0 hc) hdt0.le
        have hcond1 : g * b.inD.cap / dt ≤ b.inD.cap / dt :=
          div_le_div_of_nonneg_right (mul_le_of_le_one_left hc g1) hdt0.le
        refine (block_le h0 h1 ?_).2.trans ?_
        · split_ifs
          · exact hcond
          · exact div_nonneg zero_le_one (hE.le.trans (le_max_right _ _))
          · rw [one_mul]; exact hcd
        · split_ifs with q1 q2
          · exact hcond1
          · push Not at q2
            have hpos : 0 < g * b.inD.cap / dt := lt_of_lt_of_le hE q2.2
            refine le_trans ?_ hcond1
            rw [div_le_iff₀ (lt_of_lt_of_le hE (le_max_right _ _))]
            refine le_trans ?_ (mul_le_mul_of_nonneg_left (le_max_left _ _) hpos.le)
            rw [mul_add, mul_one_div_cancel hpos.ne']
            have : 0 ≤ g * b.inD.cap / dt * (dt / b.outD.cap) :=
              mul_nonneg hpos.le (div_nonneg hdt0.le (hE.le.trans q1.1.le))
            linarith
          · rw [one_mul]
      · have e : effectiveConductivity option dt block b = _ := if_neg hd
        rw [e]; exact hcd
    rw [hA, ← le_div_iff₀ hdt0]
    exact max_le ((min_le_left _ _).trans key) (div_nonneg hc hdt0.le)
  · have e : effectiveConductivity option dt block b = _ := if_neg (by rw [hd]; exact fun h => Bool.false_ne_true h.1)
    rw [hA, e, min_eq_left hl, max_self]
  · unfold linkFlux sourceTerm
    ring

/-- Without the option, an exchange at the conductance does not bring the pressures past each other. -/
theorem c67_no_overshoot {limit dt : K} {block : Block K} {b : Bus K} (h0 : 0 ≤ block.value)
    (h1 : block.value ≤ 1) (hdt : dblEps < dt) (hs : dblEps < b.inD.cap) (hd : dblEps < b.outD.cap)
    (hg : dblEps * dt ≤ (computeDemandLimit dt 0 b).gain * b.inD.cap) (ps pd : K) :
    let q := admittance false limit dt block b * (ps - pd)
    (pd ≤ ps → pd + q * dt / b.outD.cap ≤ ps - q * dt / b.inD.cap) ∧
    (ps ≤ pd → ps - q * dt / b.inD.cap ≤ pd + q * dt / b.outD.cap) := by
  intro q
  have hE := dblEps_pos (K := K)
  have hdt0 : 0 < dt := hE.trans hdt
  have hs0 : 0 < b.inD.cap := hE.trans hs
  have hd0 : 0 < b.outD.cap := hE.trans hd
  obtain ⟨A, hA'⟩ : ∃ A, A = admittance false limit dt block b := ⟨_, rfl⟩
  have hA : A = max (min (effectiveConductivity false dt block b) limit) 0 := hA'
  have hq : q = A * (ps - pd) := by rw [hA']
  have key : A * (dt / b.inD.cap + dt / b.outD.cap) ≤ 1 := by
    have hpos : 0 < dt / b.inD.cap + dt / b.outD.cap := add_pos (div_pos hdt0 hs0) (div_pos hdt0 hd0)
    rw [← le_div_iff₀ hpos, hA]
    refine max_le ((min_le_left _ _).trans ?_) (div_nonneg zero_le_one hpos.le)
    by_cases hr : b.inDemand = true ∧ dt > dblEps
    · obtain ⟨g, hgg⟩ : ∃ g, g = (computeDemandLimit dt 0 b).gain := ⟨_, rfl⟩
      obtain ⟨g0, g1⟩ := gain_range dt b
      rw [← hgg] at g0 g1 hg
      have e : effectiveConductivity false dt block b = _ := if_pos hr
      rw [e]
      simp only [← hgg]
      have hcond : dblEps ≤ g * b.inD.cap / dt := by rw [le_div_iff₀ hdt0]; exact hg
      have hc0 : 0 < g * b.inD.cap / dt := lt_of_lt_of_le hE hcond
      have hgp : 0 < g := by
        rcases g0.lt_or_eq with h | h
        · exact h
        · rw [← h, zero_mul, zero_div] at hc0; exact absurd hc0 (lt_irrefl _)
      have hn : ¬ (false = true ∨ g * b.inD.cap / dt < dblEps) := by
        rintro (h | h)
        · exact Bool.false_ne_true h
        · exact absurd h (not_lt.mpr hcond)
      simp only [if_pos (show b.outD.cap > dblEps ∧ b.inD.cap > dblEps from ⟨hd, hs⟩), if_neg hn]
      have hmax : 0 < max (1 / (g * b.inD.cap / dt) + dt / b.outD.cap) dblEps := lt_of_lt_of_le hE (le_max_right _ _)
      refine (block_le h0 h1 (div_nonneg zero_le_one hmax.le)).2.trans ?_
      refine one_div_le_one_div_of_le hpos (le_trans ?_ (le_max_left _ _))
      have : dt / b.inD.cap ≤ 1 / (g * b.inD.cap / dt) := by
        rw [one_div_div]
        exact div_le_div_of_nonneg_left hdt0.le (mul_pos hgp hs0) (mul_le_of_le_one_left hs0.le g1)
      linarith
    · have e : effectiveConductivity false dt block b = _ := if_neg hr
      rw [e]; exact div_nonneg zero_le_one hpos.le
  have hsum : q * dt / b.inD.cap + q * dt / b.outD.cap = A * (dt / b.inD.cap + dt / b.outD.cap) * (ps - pd) := by
    rw [hq]; ring
  refine ⟨fun h => ?_, fun h => ?_⟩
  · nlinarith [mul_le_mul_of_nonneg_right key (sub_nonneg.mpr h)]
  · nlinarith [mul_le_mul_of_nonneg_right key (sub_nonneg.mpr h)]

/-- The capacitance sent is not negative, is at most the node's without this link, and takes away what other links supply:
all of it where their nodes' pressures rise as ours does. -/
theorem c67_capacitance (netCap supplied ourDp : K) (others : List (K × K)) :
    0 ≤ outputCapacitance netCap supplied ourDp others ∧
    outputCapacitance netCap supplied ourDp others ≤ max 0 (netCap - supplied) ∧
    (dblEps < ourDp → (∀ o ∈ others, o.2 = ourDp ∧ dblEps < o.1) →
      outputCapacitance netCap supplied ourDp others = max 0 (netCap - supplied - (others.map Prod.fst).sum)) := by
  have hE := dblEps_pos (K := K)
  have hle : ∀ (os : List (K × K)) (c : K), os.foldl (fun c o =>
      if o.1 > dblEps then if o.2 > dblEps then c - o.1 * (o.2 / max ourDp dblEps) else c else c) c ≤ c := by
    intro os
    induction os with
    | nil => intro c; exact le_rfl
    | cons o os ih =>
      intro c
      rw [List.foldl_cons]
      refine (ih _).trans ?_
      split_ifs with q1 q2
      · have : 0 ≤ o.1 * (o.2 / max ourDp dblEps) :=
          mul_nonneg (hE.le.trans q1.le) (div_nonneg (hE.le.trans q2.le) (hE.le.trans (le_max_right _ _)))
        linarith
      · exact le_rfl
      · exact le_rfl
  refine ⟨le_max_left _ _, max_le_max le_rfl (hle _ _), fun hp ho => ?_⟩
  have hsum : ∀ (os : List (K × K)), (∀ o ∈ os, o.2 = ourDp ∧ dblEps < o.1) → ∀ c : K, os.foldl (fun c o =>
      if o.1 > dblEps then if o.2 > dblEps then c - o.1 * (o.2 / max ourDp dblEps) else c else c) c =
      c - (os.map Prod.fst).sum := by
    intro os
    induction os with
    | nil => intro _ c; simp
    | cons o os ih =>
      intro h c
      have ho := h o List.mem_cons_self
      rw [List.foldl_cons, ih (fun x hx => h x (List.mem_cons_of_mem _ hx)), List.map_cons, List.sum_cons,
        if_pos ho.2, if_pos (by rw [ho.1]; exact hp), ho.1, max_eq_left hp.le, div_self (hE.trans hp).ne']
      ring
  unfold outputCapacitance
  rw [hsum _ ho]

/-! ## Cases -/

/-- Water and oxygen, with a trace compound. -/
private def exCfg : IfConfig ℚ :=
  { nF := 2
    nT := 1
    mw := fun i => if i = 0 then 18 else 32 }

private def exGiven : Given ℚ :=
  { energy := 0
    numFluid := 2
    numTc := 1
    fluid := fun _ => 0
    tc := fun _ => 0
    value := 0 }

private def exData (demand : Bool) : Data ℚ :=
  { Data.init 2 1 with
    frame := 3
    demand := demand }

private def exBody (a b : ℚ) : Body ℚ :=
  { frac := fun i => if i = 0 then a else b
    tc := fun _ => 1 / 8
    energy := 300 }

/-- A link in a role. -/
private def exLink (demand : Bool) : Link ℚ :=
  { cfg := exCfg
    bus := { Bus.init false 2 1 with outD := exData demand }
    workFlow := exGiven
    workFluid := { exGiven with energy := 300 }
    content := exBody (9 / 25) (16 / 25)
    pressure := 100
    inflow := exBody 1 0
    inflowSet := false
    volume := 5
    edit := none
    internal := exBody 1 0
    sourcePressure := 0
    demandFlux := 0
    supplyVolume := 0
    flux := 2 }

/-- The hypotheses of `c67_state` and `c67_flow` hold: the demand side gets 300 K and 100 kPa, the supply side loses 2. -/
example : c67Sized 2 1 (exLink false) ∧ c67Proper exCfg (exLink false).content ∧
    c67Enough 2 exCfg exCfg (exLink false).content ∧ (Link.processOutputs 1 (exLink false)).bus.inDemand = false ∧
    (inputRole (Link.processOutputs 1 (exLink false)).bus.outD (exLink true)).bus.inDemand = true ∧
    (inputRole (Link.processOutputs 1 (exLink true)).bus.outD (exLink false)).bus.inDemand = false ∧
    (Link.processInputs (Link.processOutputs 1 (exLink false)).bus.outD (exLink true)).map
      (fun r => (r.content.energy, r.sourcePressure, r.content.frac 0, r.content.tc 0)) = some (300, 100, 9 / 25, 1 / 8) ∧
    (Link.processInputs (Link.processOutputs 1 (exLink true)).bus.outD (exLink false)).map
      (fun r => (r.demandFlux, r.internal.frac 0, r.internal.tc 0)) = some (-2, 9 / 25, 1 / 8) := by
  refine ⟨⟨by decide +kernel, by decide +kernel, by decide +kernel, ?_⟩, ⟨⟨?_, ?_⟩, ?_, by decide +kernel⟩, ?_, by decide +kernel,
    by decide +kernel, by decide +kernel, by decide +kernel, by decide +kernel⟩
  · exact (by decide +kernel : ∀ i < 2, dblEps ≤ exCfg.mw i ∧ exCfg.mw i * dblEps ≤ 1)
  · exact (by decide +kernel : ∀ i < 2, 0 ≤ (exBody (9 / 25) (16 / 25)).frac i)
  · exact (by decide +kernel : ∑ i ∈ range 2, (exBody (9 / 25) (16 / 25)).frac i = 1)
  · exact (by decide +kernel : ∀ i < 1, 0 ≤ (exBody (9 / 25) (16 / 25)).tc i)
  · exact (by decide +kernel : dblEps * (1 + ∑ i ∈ range 1, (exBody (9 / 25) (16 / 25)).tc i) ≤
      ∑ i ∈ range 2, c67mole exCfg (exBody (9 / 25) (16 / 25)) i)

/-- Two networks that share only the first of two compounds: the flow of the other is lost. -/
theorem c67_lost : ∃ d s : Link ℚ, d.bus.inDemand = true ∧ d.flux = 2 ∧
    (Link.processInputs (Link.processOutputs 1 d).bus.outD s).map (fun r => r.demandFlux) = some (-1) :=
  ⟨exLink true, { exLink false with
    cfg := { exCfg with nF := 1 }
    workFlow := { exGiven with numFluid := 1 } }, rfl, rfl, by decide +kernel⟩

/-- A second flow into the demand side's node, of another fluid: the supply, which sends only water, is made to lose oxygen. -/
theorem c67_mixed : ∃ d s : Link ℚ, d.bus.inDemand = true ∧ d.flux = 2 ∧ d.content.frac 1 = 0 ∧ s.content.frac 1 = 0 ∧
    (Link.processInputs (Link.processOutputs 1 d).bus.outD s).map
      (fun r => (r.demandFlux, r.internal.frac 0, r.internal.frac 1)) = some (-2, 9 / 25, 16 / 25) :=
  ⟨{ exLink true with
      content := exBody 1 0
      inflow := exBody (9 / 25) (16 / 25)
      inflowSet := true }, { exLink false with content := exBody 1 0 }, rfl, rfl, rfl, rfl, by decide +kernel⟩

/-- A hot fluid flows back from the demand side at 500 K, and arrives at the supply's own 300 K. -/
theorem c67_cold : ∃ d s : Link ℚ, d.bus.inDemand = true ∧ d.flux < 0 ∧ d.content.energy = 500 ∧
    s.workFluid.energy = 300 ∧ (Link.processInputs (Link.processOutputs 1 d).bus.outD s).map
      (fun r => (r.demandFlux, r.internal.energy)) = some (2, 300) :=
  ⟨{ exLink true with
      content := { exBody (9 / 25) (16 / 25) with energy := 500 }
      flux := -2 }, exLink false, rfl, by decide +kernel, rfl, rfl, by decide +kernel⟩

/-- A history in which the roles change: forced to demand, then to supply. -/
example : ∃ fs : List (c67Frame ℚ), (∀ f ∈ fs, f.keeps) ∧
    (c67run fs (exLink false)).map (fun l => (l.bus.inDemand, l.volume, l.supplyVolume)) = some (true, 0, 5) ∧
    ((c67run fs (exLink false)).bind fun l =>
      (c67Frame.inputs (K := ℚ) { recv := Data.init 2 1, role := .supply, solve := id, cap := 1 } l).map fun l =>
        (l.bus.inDemand, l.volume)) = some (false, 5) := by
  refine ⟨[{ recv := Data.init 2 1, role := .none, solve := id, cap := 1 },
    { recv := Data.init 2 1, role := .demand, solve := id, cap := 1 }], fun f hf => ?_, by decide +kernel, by decide +kernel⟩
  simp only [List.mem_cons, List.not_mem_nil, or_false] at hf
  rcases hf with rfl | rfl <;> exact fun l => ⟨rfl, rfl, rfl, rfl⟩

/-- A demand side with both capacitances one, and a step of one second. -/
private def exBus : Bus ℚ :=
  { Bus.init false 2 1 with
    outD := { exData true with cap := 1 }
    inD := { exData false with cap := 1 } }

example : dblEps < exBus.inD.cap ∧ dblEps < exBus.outD.cap ∧
    dblEps * 1 ≤ (computeDemandLimit 1 0 exBus).gain * exBus.inD.cap ∧
    admittance (K := ℚ) false 100 1 { on := true, value := 1 / 2 } exBus = 1 / 4 ∧
    admittance (K := ℚ) true 100 1 { on := false, value := 1 / 2 } exBus = 1 := by
  decide +kernel

example : outputCapacitance (10 : ℚ) 2 1 [(3, 1), (1, 1)] = 4 := by decide +kernel

end Gunns.Props
