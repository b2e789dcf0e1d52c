import Verif.Fluid.TraceStep
import Verif.Props.FluidNode

/-!
# C56: trace compounds are conserved by fluid nodes
-/

set_option linter.unusedSectionVars false

namespace Gunns.Props

open Gunns.Fluid Finset

variable {K : Type _} [Field K] [LinearOrder K] [IsStrictOrderedRing K]

/-- A whole step of a node: `resetFlows`, then the links' calls in any order, then `integrateFlows`. -/
def traceStep (th : Thermo K) (g : TcConfig K) (dt : K) (ops : List (TCollect K)) (s : TNode K) : Option (TNode K) :=
  s.resetFlows.bind (fun s0 => (ops.foldl (TCollect.run th g) s0).integrateFlows th g dt)

/-- The flows of a step. -/
def traceFlows (dt : K) (ops : List (TCollect K)) : Flows K := flowsOf dt (plain ops)

/-- Mass of a trace compound that links with these fluxes take from a node with this outflow in a step. -/
def tcTaken (g : TcConfig K) (dt : K) (ops : List (TCollect K)) (out : Tc K) (j : Nat) : K :=
  ((outs (plain ops)).map (fun f => f * dt * out.frac j * g.mw j)).sum

/-- A node whose trace compounds are in order. -/
structure TraceReady (g : TcConfig K) (s : TNode K) : Prop where
  fluid : Ready s.fluid
  tidy : Tidy g s.fluid.content.mole s.content

/-- A step in which none of the guards against small numbers acts. -/
structure TraceFine (g : TcConfig K) (dt : K) (ops : List (TCollect K)) (s : TNode K) : Prop where
  add : ∀ a ∈ tins ops, Addable s.fluid.content (a.1, a.2.2)
  fluid : Moderate (traceFlows dt ops) s.fluid.content
  trace : TraceModerate g (traceFlows dt ops) s.fluid.content s.content ops

theorem molFlow_inMoles {dt : K} {ops : List (TCollect K)} (c : Poly K) :
    molFlow c (tins ops) * dt = (traceFlows dt ops).inMoles c := by
  unfold Flows.inMoles Flows.inPart traceFlows flowsOf molFlow
  simp only [inflows_plain, List.map_map]
  induction tins ops with
  | nil => simp
  | cons a l ih =>
    simp only [List.map_cons, List.sum_cons, add_mul, add_div, Finset.sum_add_distrib, ih, Function.comp]
    congr 1
    rw [Finset.sum_mul]
    exact Finset.sum_congr rfl (fun i _ => by ring)

/-- The node when `integrateFlows` is called. -/
theorem trace_collected {th : Thermo K} {g : TcConfig K} {s : TNode K} (hr : Ready s.fluid) {dt : K}
    {ops : List (TCollect K)} (hdt : 0 < dt) (hadd : ∀ a ∈ tins ops, Addable s.fluid.content (a.1, a.2.2))
    (hw : ∀ j, j < g.n → 0 < g.mw j)
    (hpre : ∀ pre suf, tins ops = pre ++ suf → ∀ j, j < g.n →
      tcFlow pre j = 0 ∨ dblEps * molFlow s.fluid.content pre ≤ tcFlow pre j) :
    ∃ s0 f0, s.resetFlows = some s0 ∧ resetFlows s.fluid = .ok f0 ∧ s0.fluid = f0 ∧ s0.outflow.frac = s.content.frac ∧
      let s1 := ops.foldl (TCollect.run th g) s0
      s1.fluid = (plain ops).foldl (Collect.run th) f0 ∧ s1.content = s.content ∧ s1.outflow = s0.outflow ∧
      Ready s1.fluid ∧ s1.fluid.content = s.fluid.content ∧ s1.fluid.volume = s.fluid.volume ∧
      InflowIs (traceFlows dt ops) s1.fluid.content s1.fluid.inflow ∧
      s1.fluid.influx * dt = (traceFlows dt ops).inMass ∧ s1.fluid.scheduled * dt = (traceFlows dt ops).outMoles ∧
      ((traceFlows dt ops).ins ≠ [] → FlowShared s1.fluid.inflow) ∧
      TraceIs g (traceFlows dt ops) ops s1 ∧
      ((traceFlows dt ops).ins ≠ [] → ∀ j, j < g.n → s1.inflow.frac j = 0 ∨ dblEps ≤ s1.inflow.frac j) := by
  have hin : ∀ a ∈ inflows (plain ops), Addable s.fluid.content a := by
    intro a ha
    rw [inflows_plain] at ha
    obtain ⟨b, hb, rfl⟩ := List.mem_map.1 ha
    exact hadd b hb
  obtain ⟨f0, h1, -, h3, h4, h5, -, -, -, h9, h10, h11, h12, -⟩ := collected (th := th) hr hdt hin
  have h0 : s.resetFlows = some { s with
      fluid := f0
      inflow := Tc.zero
      outflow := Tc.setState s.content s.outflow
      rates := fun _ => 0 } := by
    unfold TNode.resetFlows; rw [h1]
  obtain ⟨s0, hs0⟩ : ∃ s0 : TNode K, s0 = { s with
      fluid := f0
      inflow := Tc.zero
      outflow := Tc.setState s.content s.outflow
      rates := fun _ => 0 } := ⟨_, rfl⟩
  rw [← hs0] at h0
  have hf0 : s0.fluid = f0 := by rw [hs0]
  have hfl := collect_fluid th g ops s0
  obtain ⟨k1, k2, k3⟩ := collect_rest th g ops s0
  rw [hf0] at hfl
  have hinf : f0.inflow = resetState s.fluid.inflow := by
    unfold resetFlows at h1
    cases hst : setState s.fluid.content s.fluid.outflow with
    | ok o => simp only [hst] at h1; cases h1; rfl
    | thrown o => simp only [hst] at h1; cases h1
  have hflow0 : ∀ i, i < s.fluid.content.n → (f0.inflow.parts i).flowRate = 0 := by
    intro i hi
    rw [hinf]
    unfold resetState
    rw [each_parts (by show i < s.fluid.inflow.n; rw [← hr.inflow.1]; exact hi)]
  have hzero : ∑ i ∈ range s.fluid.content.n, (s0.fluid.inflow.parts i).flowRate / s.fluid.content.mw i = 0 := by
    rw [hf0]
    refine Finset.sum_eq_zero (fun i hi => ?_)
    rw [hflow0 i (mem_range.1 hi), zero_div]
  have htr := collect_trace (th := th) (g := g) (c := s.fluid.content) hr.weights hw ops (s := s0) (fun _ => 0)
    (by rw [hf0, hinf]; exact adding_reset (hr.inflow.weights hr.weights)) (by rw [hf0, hinf]; exact hr.inflow) hadd
    (by intro j _; rw [hs0, zero_mul]; rfl)
    (by
      intro pre suf hps j hj
      rw [hzero, zero_add, zero_add]
      exact hpre pre suf hps j hj)
  simp only [hzero, zero_add] at htr
  have hne : (traceFlows dt ops).ins ≠ [] → tins ops ≠ [] := by
    intro h c
    apply h
    show inflows (plain ops) = []
    rw [inflows_plain, c]; rfl
  have hmol : (traceFlows dt ops).ins ≠ [] → 0 < molFlow s.fluid.content (tins ops) := by
    intro h
    have hpos : 0 < (traceFlows dt ops).inMoles s.fluid.content := by
      rw [h4] at h9
      obtain ⟨y1, y2, -⟩ := h9.some h
      rw [show (traceFlows dt ops).inMoles s.fluid.content = _ from y2.symm]
      refine div_pos ?_ y1.weight.1
      refine mul_pos ?_ hdt
      have hl : inflows (plain ops) ≠ [] := h
      show 0 < ((inflows (plain ops)).map (fun a => a.2)).sum
      refine List.sum_pos _ ?_ (by simpa using hl)
      intro x hx
      obtain ⟨a, ha, rfl⟩ := List.mem_map.1 hx
      exact dblEps_pos.trans_le (hin a ha).flow
    rw [← molFlow_inMoles] at hpos
    exact pos_of_mul_pos_left hpos hdt.le
  refine ⟨s0, f0, h0, h1, hf0, by rw [hs0]; rfl, hfl, by rw [k1, hs0], k2, ?_, ?_, ?_, ?_, ?_, ?_, ?_, ⟨?_, ?_, ?_⟩, ?_⟩
  · rw [hfl]; exact h3
  · rw [hfl]; exact h4
  · rw [hfl]; exact h5
  · rw [hfl]; exact h9
  · rw [hfl]; exact h10
  · rw [hfl]; exact h11
  · intro h; rw [hfl]; exact h12 h
  · intro h j hj
    obtain ⟨-, -, t3⟩ := htr j hj
    rw [hfl, h4, ← molFlow_inMoles]
    show _ = tcFlow (tins ops) j * dt * g.mw j
    rw [← t3 (hne h)]
    ring
  · intro h j _
    have h' : inflows (plain ops) = [] := h
    rw [inflows_plain] at h'
    have h'' : tins ops = [] := by simpa using h'
    unfold tcIn
    rw [h'']
    show (0 : K) * _ * _ = 0
    ring
  · intro j hj
    have := k3 j hj
    rw [hs0] at this ⊢
    rw [this, zero_add]
    rfl
  · intro h j hj
    obtain ⟨-, -, t3⟩ := htr j hj
    have t := t3 (hne h)
    have hm := hmol h
    rcases hpre (tins ops) [] (by simp) j hj with c | c
    · left
      rw [c] at t
      exact (mul_eq_zero.1 t).resolve_right hm.ne'
    · right
      rw [← t] at c
      exact le_of_mul_le_mul_right c hm

theorem tcTaken_eq (g : TcConfig K) (dt : K) (ops : List (TCollect K)) (out : Tc K) (j : Nat) :
    tcTaken g dt ops out j = out.frac j * (traceFlows dt ops).outMoles * g.mw j := by
  unfold tcTaken
  have e : (fun f => f * dt * out.frac j * g.mw j) = (fun f : K => f * (dt * out.frac j * g.mw j)) := by
    funext f; ring
  rw [e, List.sum_map_mul_right, List.map_id']
  unfold Flows.outMoles traceFlows flowsOf
  ring

/-- What a step does, in terms of the shares taken. -/
theorem trace_balance {th : Thermo K} {g : TcConfig K} {s : TNode K} {dt : K} {ops : List (TCollect K)}
    (hr : TraceReady g s) (hv : 0 < s.fluid.volume) (hf : TraceFine g dt ops s) :
    ∃ r, traceStep th g dt ops s = some r ∧ nodeStep th dt (plain ops) s.fluid = .ok r.fluid ∧ TraceReady g r ∧
      r.fluid.volume = s.fluid.volume ∧
      (∀ j, j < g.n → r.content.mass j = s.content.mass j + tcIn g dt ops j -
        tcOut g (traceFlows dt ops) s.fluid.content s.content ops j + tcGiven dt ops j) ∧
      (0 < (traceFlows dt ops).outMoles → ∀ j, j < g.n →
        tcTaken g dt ops r.outflow j = tcOut g (traceFlows dt ops) s.fluid.content s.content ops j) ∧
      (0 < (traceFlows dt ops).outMoles → (traceFlows dt ops).outMoles ≤ s.fluid.content.mole → ∀ j, j < g.n →
        r.outflow.frac j = s.content.frac j) ∧
      ((traceFlows dt ops).outMoles = 0 → ∀ j, tcOut g (traceFlows dt ops) s.fluid.content s.content ops j = 0) := by
  have hdt : 0 < dt := hf.fluid.dt
  obtain ⟨s0, f0, c1, c2, c3, c4, c5, c6, c7, c8, c9, c10, c11, c12, c13, -, c15, -⟩ :=
    trace_collected (th := th) hr.fluid hdt hf.add hf.trace.weights hf.trace.collected
  obtain ⟨s1, hs1⟩ : ∃ s1, s1 = ops.foldl (TCollect.run th g) s0 := ⟨_, rfl⟩
  rw [← hs1] at c5 c6 c7 c8 c9 c10 c11 c12 c13 c15
  obtain ⟨r, r1, r2, r3, r4, r5, r6⟩ := trace_step (th := th) (g := g) (w := traceFlows dt ops) (ops := ops) (s := s1) c8
    (by rw [c9]; exact hf.fluid) (by rw [c10]; exact hv) c11 c12 c13 (by rw [c9, c6]; exact hr.tidy)
    (by rw [c9, c6]; exact hf.trace) c15
  have hstep : nodeStep th dt (plain ops) s.fluid = .ok r.fluid := by
    unfold nodeStep
    rw [c2]
    show integrateFlows th dt ((plain ops).foldl (Collect.run th) f0) = _
    rw [← c5]; exact r2
  obtain ⟨x, x1, x2, -, -, -, -, x7⟩ := c32_balance (th := th) (s := s.fluid) (dt := dt) (ops := plain ops) hr.fluid hv (by
    intro a ha
    rw [inflows_plain] at ha
    obtain ⟨b, hb, rfl⟩ := List.mem_map.1 ha
    exact hf.add b hb) hf.fluid
  rw [hstep] at x1; cases x1
  rw [c6, c9] at r4 r5
  rw [c6, c9] at r6
  refine ⟨r, ?_, hstep, ⟨x2, r3⟩, x7, r4, ?_, r6, ?_⟩
  · unfold traceStep
    rw [c1]
    show (ops.foldl (TCollect.run th g) s0).integrateFlows th g dt = some r
    rw [← hs1]; exact r1
  · intro h j hj
    rw [tcTaken_eq]
    exact r5 h j hj
  · intro h j
    have hmole : 0 ≤ s.fluid.content.mole := by
      have := hr.fluid.mass
      rw [← hr.fluid.content.moles] at this
      exact nonneg_of_mul_nonneg_left this hr.fluid.mixed.weight.1
    unfold tcOut Flows.contentShare Flows.inflowShare
    rw [h, min_eq_left hmole]
    simp

/-- **C56**. A step of a node with a volume does not throw, does to the fluid what it does without trace compounds, and
changes the mass of each trace compound by what came with the flows, plus what was given on its own, less what links
take: flux times the mole fraction of the node's outflow. Mass and mole fraction agree afterwards, and are not negative. -/
theorem c56_balance {th : Thermo K} {g : TcConfig K} {s : TNode K} {dt : K} {ops : List (TCollect K)}
    (hr : TraceReady g s) (hv : 0 < s.fluid.volume) (hf : TraceFine g dt ops s) :
    ∃ r, traceStep th g dt ops s = some r ∧ nodeStep th dt (plain ops) s.fluid = .ok r.fluid ∧ TraceReady g r ∧
      r.fluid.volume = s.fluid.volume ∧
      ∀ j, j < g.n → r.content.mass j = s.content.mass j + tcIn g dt ops j + tcGiven dt ops j - tcTaken g dt ops r.outflow j := by
  obtain ⟨r, r1, r2, r3, r4, r5, r6, -, r8⟩ := trace_balance (th := th) hr hv hf
  refine ⟨r, r1, r2, r3, r4, fun j hj => ?_⟩
  have h0 : 0 ≤ (traceFlows dt ops).outMoles := mul_nonneg (List.sum_nonneg hf.fluid.outs) hf.fluid.dt.le
  rcases h0.eq_or_lt with h | h
  · rw [r5 j hj, r8 h.symm j, tcTaken_eq, ← h]; ring
  · rw [r5 j hj, r6 h j hj]; ring

/-- **C56**. Links that draw from a node with enough contents before it integrates its flows see the mole fractions that
the node's loss is counted with. -/
theorem c56_ahead {th : Thermo K} {g : TcConfig K} {s r : TNode K} {dt : K} {ops : List (TCollect K)}
    (hr : TraceReady g s) (hv : 0 < s.fluid.volume) (hf : TraceFine g dt ops s)
    (henough : (traceFlows dt ops).outMoles ≤ s.fluid.content.mole) (h : traceStep th g dt ops s = some r) :
    ∃ s0, s.resetFlows = some s0 ∧ ∀ j, j < g.n →
      tcTaken g dt ops s0.outflow j = tcTaken g dt ops r.outflow j ∧
      (ops.foldl (TCollect.run th g) s0).outflow = s0.outflow := by
  obtain ⟨s0, f0, c1, -, -, c4, -, -, c7, -⟩ :=
    trace_collected (th := th) hr.fluid hf.fluid.dt hf.add hf.trace.weights hf.trace.collected
  obtain ⟨x, x1, -, -, -, -, -, x7, -⟩ := trace_balance (th := th) hr hv hf
  rw [h] at x1; cases x1
  refine ⟨s0, c1, fun j hj => ⟨?_, c7⟩⟩
  have h0 : 0 ≤ (traceFlows dt ops).outMoles := mul_nonneg (List.sum_nonneg hf.fluid.outs) hf.fluid.dt.le
  rw [tcTaken_eq, tcTaken_eq]
  rcases h0.eq_or_lt with e | e
  · rw [← e]; ring
  · rw [x7 e henough j hj, c4]

/-- **C56**. The order of the links' calls does not matter for what the node holds afterwards, as long as no mole fraction
on the way is rounded to zero. -/
theorem c56_order {th : Thermo K} {g : TcConfig K} {s r r' : TNode K} {dt : K} {ops ops' : List (TCollect K)}
    (hp : ops.Perm ops') (hr : TraceReady g s) (hv : 0 < s.fluid.volume) (hf : TraceFine g dt ops s)
    (hf' : TraceFine g dt ops' s) (h : traceStep th g dt ops s = some r) (h' : traceStep th g dt ops' s = some r') :
    ∀ j, j < g.n → r.content.mass j = r'.content.mass j := by
  obtain ⟨x, x1, -, -, -, x5, -⟩ := trace_balance (th := th) hr hv hf
  obtain ⟨y, y1, -, -, -, y5, -⟩ := trace_balance (th := th) hr hv hf'
  rw [h] at x1; cases x1
  rw [h'] at y1; cases y1
  have pp : (plain ops).Perm (plain ops') := hp.filterMap _
  have pin : (inflows (plain ops)).Perm (inflows (plain ops')) := pp.filterMap _
  have pout : (outs (plain ops)).Perm (outs (plain ops')) := pp.filterMap _
  have pt : (tins ops).Perm (tins ops') := hp.filterMap _
  have e2 : ∀ i, (traceFlows dt ops).inPart i = (traceFlows dt ops').inPart i := by
    intro i; unfold Flows.inPart traceFlows flowsOf; rw [(pin.map _).sum_eq]
  have e3 : (traceFlows dt ops).outMoles = (traceFlows dt ops').outMoles := by
    unfold Flows.outMoles traceFlows flowsOf; rw [pout.sum_eq]
  have e4 : (traceFlows dt ops).inMoles s.fluid.content = (traceFlows dt ops').inMoles s.fluid.content := by
    unfold Flows.inMoles; simp only [e2]
  have e5 : ∀ j, tcIn g dt ops j = tcIn g dt ops' j := by
    intro j; unfold tcIn tcFlow; rw [(pt.map _).sum_eq]
  have e6 : ∀ j, tcGiven dt ops j = tcGiven dt ops' j := by
    intro j; unfold tcGiven; rw [(hp.map _).sum_eq]
  intro j hj
  rw [x5 j hj, y5 j hj]
  have e7 : tcOut g (traceFlows dt ops) s.fluid.content s.content ops j =
      tcOut g (traceFlows dt ops') s.fluid.content s.content ops' j := by
    unfold tcOut Flows.contentShare Flows.inflowShare
    rw [e3, e4]
    have := e5 j
    show _ + _ * tcIn g dt ops j = _ + _ * tcIn g dt ops' j
    rw [this]
  rw [e5, e6, e7]

/-- **C56**. What one node loses to a link another gains from it: two nodes with a flow between them, of any flux, that the
first holds enough for, hold together what they held before. -/
theorem c56_transfer {th : Thermo K} {g : TcConfig K} {a b a0 a' b' : TNode K} {dt flux : K}
    (ha : TraceReady g a) (hb : TraceReady g b) (hva : 0 < a.fluid.volume) (hvb : 0 < b.fluid.volume)
    (h0 : a.resetFlows = some a0) (hw : a0.fluid.outflow.mweight ≠ 0)
    (hfa : TraceFine g dt [.schedule flux] a) (henough : flux * dt ≤ a.fluid.content.mole)
    (hfb : TraceFine g dt [.inflow a0.fluid.outflow a0.outflow (flux * a0.fluid.outflow.mweight)] b)
    (ea : traceStep th g dt [.schedule flux] a = some a')
    (eb : traceStep th g dt [.inflow a0.fluid.outflow a0.outflow (flux * a0.fluid.outflow.mweight)] b = some b') :
    ∀ j, j < g.n → a'.content.mass j + b'.content.mass j = a.content.mass j + b.content.mass j := by
  intro j hj
  obtain ⟨x, x1, -, -, -, x5⟩ := c56_balance (th := th) ha hva hfa
  obtain ⟨y, y1, -, -, -, y5⟩ := c56_balance (th := th) hb hvb hfb
  rw [ea] at x1; cases x1
  rw [eb] at y1; cases y1
  obtain ⟨z, z1, z2⟩ := c56_ahead (th := th) ha hva hfa (by
    show ([flux] : List K).sum * dt ≤ _
    rw [List.sum_cons, List.sum_nil, add_zero]; exact henough) ea
  rw [h0] at z1; cases z1
  rw [x5 j hj, y5 j hj, ← (z2 j hj).1]
  unfold tcIn tcGiven tcTaken tcFlow
  simp only [tins, plain, outs, List.filterMap_cons, List.filterMap_nil, List.map_cons, List.map_nil, List.sum_cons,
    List.sum_nil, mul_div_assoc, div_self hw]
  ring

/-- Steps of a node, one after the other. -/
def traceRun (th : Thermo K) (g : TcConfig K) : List (K × List (TCollect K)) → TNode K → Option (TNode K)
  | [], s => some s
  | (dt, ops) :: l, s => (traceStep th g dt ops s).bind (traceRun th g l)

/-- Every step of a history is fine, for the state the node is then in. -/
def TraceFines (th : Thermo K) (g : TcConfig K) : List (K × List (TCollect K)) → TNode K → Prop
  | [], _ => True
  | (dt, ops) :: l, s => TraceFine g dt ops s ∧ ∀ r, traceStep th g dt ops s = some r → TraceFines th g l r

/-- Mass of a trace compound that links take during a history. -/
def tcTakenAll (th : Thermo K) (g : TcConfig K) (j : Nat) : List (K × List (TCollect K)) → TNode K → K
  | [], _ => 0
  | (dt, ops) :: l, s =>
    match traceStep th g dt ops s with
    | some r => tcTaken g dt ops r.outflow j + tcTakenAll th g j l r
    | none => 0

/-- **C56**. Over any number of steps the mass of each trace compound changes by what was given less what was taken. -/
theorem c56_history {th : Thermo K} {g : TcConfig K} (l : List (K × List (TCollect K))) {s : TNode K} (hr : TraceReady g s)
    (hv : 0 < s.fluid.volume) (hf : TraceFines th g l s) :
    ∃ r, traceRun th g l s = some r ∧ TraceReady g r ∧
      ∀ j, j < g.n → r.content.mass j = s.content.mass j +
        (l.map (fun a => tcIn g a.1 a.2 j + tcGiven a.1 a.2 j)).sum - tcTakenAll th g j l s := by
  induction l generalizing s with
  | nil => exact ⟨s, rfl, hr, fun j _ => by simp [tcTakenAll]⟩
  | cons a l ih =>
    obtain ⟨dt, ops⟩ := a
    obtain ⟨h1, h2⟩ := hf
    obtain ⟨r, g1, -, g3, g4, g5⟩ := c56_balance (th := th) hr hv h1
    obtain ⟨t, k1, k2, k3⟩ := ih g3 (by rw [g4]; exact hv) (h2 r g1)
    refine ⟨t, by rw [traceRun, g1]; exact k1, k2, fun j hj => ?_⟩
    rw [k3 j hj, g5 j hj, List.map_cons, List.sum_cons, tcTakenAll, g1]
    simp only
    ring

/-- **C56**. A node without volume passes on the trace compounds that flow in: it holds none, its outflow has the mole
fractions of the inflow, and if the moles asked for are those that flow in then links take what came. What is given on
its own does not count. -/
theorem c56_no_volume {th : Thermo K} {g : TcConfig K} {s : TNode K} {dt : K} {ops : List (TCollect K)}
    (hr : Ready s.fluid) (hv : ¬ 0 < s.fluid.volume) (hmole : s.fluid.content.mole = 0)
    (hadd : ∀ a ∈ tins ops, Addable s.fluid.content (a.1, a.2.2)) (hne : tins ops ≠ [])
    (hm : Asked (traceFlows dt ops) s.fluid.content) (hout : 0 < (outs (plain ops)).sum)
    (hp : ∀ i, i < s.fluid.content.n → (traceFlows dt ops).inPart i = 0 ∨
      dblEps * dblEps * (traceFlows dt ops).inMass ≤ (traceFlows dt ops).inPart i)
    (hw : ∀ j, j < g.n → 0 < g.mw j)
    (hpre : ∀ pre suf, tins ops = pre ++ suf → ∀ j, j < g.n →
      tcFlow pre j = 0 ∨ dblEps * molFlow s.fluid.content pre ≤ tcFlow pre j) :
    ∃ r, traceStep th g dt ops s = some r ∧ nodeStep th dt (plain ops) s.fluid = .ok r.fluid ∧
      ∀ j, j < g.n → r.content.mass j = 0 ∧ r.outflow.frac j = r.content.frac j ∧
        r.content.frac j * (traceFlows dt ops).inMoles s.fluid.content * g.mw j = tcIn g dt ops j ∧
        ((traceFlows dt ops).outMoles = (traceFlows dt ops).inMoles s.fluid.content →
          tcTaken g dt ops r.outflow j = tcIn g dt ops j) := by
  have hdt : 0 < dt := hm.dt
  obtain ⟨w, hwd⟩ : ∃ w, w = traceFlows dt ops := ⟨_, rfl⟩
  have hwdt : w.dt = dt := by rw [hwd]; rfl
  have hout' : 0 < w.outMoles := by rw [hwd]; exact mul_pos hout hdt
  obtain ⟨s0, f0, c1, c2, c3, c4, c5, c6, c7, c8, c9, c10, c11, c12, c13, c14, c15, c16⟩ :=
    trace_collected (th := th) hr hdt hadd hw hpre
  have hins : w.ins ≠ [] := by
    rw [hwd]
    show inflows (plain ops) ≠ []
    rw [inflows_plain]
    simpa using hne
  rw [← hwd] at c11 c12 c13 c14 c15 c16 hm hp ⊢
  obtain ⟨s1, hs1⟩ : ∃ s1, s1 = ops.foldl (TCollect.run th g) s0 := ⟨_, rfl⟩
  rw [← hs1] at c5 c6 c7 c8 c9 c10 c11 c12 c13 c14 c15 c16
  rw [← hwdt] at c12 c13
  rw [← c9] at hm hp hmole
  have hv1 : ¬ 0 < s1.fluid.volume := by rw [c10]; exact hv
  obtain ⟨r, r1, r2, r3, r4, r5, r6, r7, -, -, -, -, r12, r13, -⟩ := node_step_no_volume (th := th) (w := w) c8 hm hv1 hmole
    hins c11 (c14 hins) c12 c13 hout' hp
  obtain ⟨a1, a2, a3, a4⟩ := amounts_spec c8 hm c11 c12 c13
  obtain ⟨m1, m2⟩ := moles_taken c8 hm c11
  obtain ⟨y1, y2, y3⟩ := c11.some hins
  have hin : dblEps < w.inMass := hm.inMass.resolve_left hins
  have hin0 : 0 < w.inMass := dblEps_pos.trans hin
  have hinM : 0 < w.inMoles s1.fluid.content := by rw [← y2]; exact div_pos hin0 y1.weight.1
  have hwpos : 0 < w.dt := by rw [hwdt]; exact hdt
  have hinf : 0 < s1.fluid.influx := by rw [← c12] at hin0; exact pos_of_mul_pos_left hin0 hwpos.le
  have hmass : s1.fluid.content.mass = 0 := by rw [← c8.content.moles, hmole, zero_mul]
  have hfc : w.fromContent s1.fluid.content = 0 := by unfold Flows.fromContent; rw [hmass, mul_zero]
  rw [hmole, min_eq_right hout'.le, sub_zero] at m2
  have hfi : 0 < w.fromInflow s1.fluid.content := by
    refine mul_pos ?_ hin0
    rw [← m2] at hout'
    exact pos_of_mul_pos_left hout' hinM.le
  have hoc : (amounts w.dt s1.fluid).outContent = 0 := by rw [a3, hfc, zero_div]
  have hot : 0 < (amounts w.dt s1.fluid).outThru := by rw [a4]; exact div_pos hfi hwpos
  have hot1 : dblEps ≤ (amounts w.dt s1.fluid).outThru := by
    rw [a4, le_div_iff₀ hwpos]
    exact (hm.fromInflow.resolve_left hfi.ne').1
  -- the contents
  have hcontent : ∀ j, j < g.n → (Tc.limitPositive g r.content.mole (traceNoVolume s1)).mass j = 0 ∧
      (Tc.limitPositive g r.content.mole (traceNoVolume s1)).frac j = s1.inflow.frac j := by
    intro j hj
    unfold traceNoVolume Tc.limitPositive Tc.updateMoleFractions
    rw [if_pos hinf, r3]
    simp only [if_neg (lt_irrefl (0 : K)), Tc.clearMasses, Tc.setState, max_self, ite_self, true_and]
    rcases c16 hins j hj with h | h
    · rw [h]; exact ite_self _
    · exact if_neg (not_lt.2 h)
  -- the molecular weight of what flows through
  have hrw : r.content.mweight * w.inMoles s1.fluid.content = w.inMass := by
    have e : ∀ i, i < s1.fluid.content.n → r.content.mweight * (w.inPart i / s1.fluid.content.mw i) =
        (r.content.parts i).moleFraction * w.inMass := by
      intro i hi
      have hi' : i < r.content.n := by rw [← r4.1]; exact hi
      have hw' := r5.weight.2 i hi'
      rw [← (r4.2 i hi).2] at hw'
      rw [← r7 i hi, mul_div_assoc', div_eq_iff (c8.weights.pos hi).ne']
      linear_combination (- w.inMass) * hw'
    unfold Flows.inMoles
    rw [Finset.mul_sum, Finset.sum_congr rfl (fun i hi => e i (mem_range.1 hi)), ← Finset.sum_mul, r4.1, r13.moles, one_mul]
  have hrgt : dblEps < r.content.mweight := mweight_gt r13.weights r5
  have hrpos : 0 < r.content.mweight := dblEps_pos.trans hrgt
  have hne' : w.fromContent s1.fluid.content + w.fromInflow s1.fluid.content ≠ 0 := by rw [hfc, zero_add]; exact hfi.ne'
  have hfl : dblEps ≤ r.outflow.flowRate := by
    have e := r12.flow
    rw [hfc, zero_add] at e
    rw [a4, ← e, mul_div_assoc, div_self hwpos.ne', mul_one] at hot1
    exact hot1
  have hmf : moleFlow r.outflow * w.dt = w.outMoles := by
    obtain ⟨x1, -, x3⟩ := r12.some hne'
    rw [moleFlow_adding r12.adding hfl, ← x3]
    obtain ⟨e1, -⟩ := r12.weight c8 hm c11 hne'
    rw [div_mul_eq_mul_div, r12.flow, ← e1, mul_div_assoc, div_self x1.weight.1.ne', mul_one]
  have hmpos : 0 < moleFlow r.outflow := by
    rw [← hmf] at hout'; exact pos_of_mul_pos_left hout' hwpos.le
  have hthru : (amounts w.dt s1.fluid).outThru / r.content.mweight = moleFlow r.outflow := by
    have : (amounts w.dt s1.fluid).outThru / r.content.mweight * w.dt = moleFlow r.outflow * w.dt := by
      rw [hmf, a4, ← m2]
      unfold Flows.fromInflow
      rw [← hrw]
      field_simp
    exact mul_right_cancel₀ hwpos.ne' this
  have hsf : sourceFlow r.content (amounts w.dt s1.fluid).outThru = (amounts w.dt s1.fluid).outThru :=
    if_neg (not_lt.2 (hot1.trans (le_abs_self _)))
  have hstart : traceStart th g (amounts w.dt s1.fluid) s1 = Tc.zero := by
    unfold traceStart
    rw [hoc, if_neg (lt_irrefl _)]
  have hfinish : ∀ t : Tc K, (∀ j, j < g.n → t.frac j = s1.inflow.frac j) → ∀ j, j < g.n →
      (traceFinish g (amounts w.dt s1.fluid) r t (traceStart th g (amounts w.dt s1.fluid) s1)).frac j = s1.inflow.frac j := by
    intro t htf j hj
    unfold traceFinish Tc.addState
    rw [if_pos hot, if_pos hrgt, hsf, hthru, hstart]
    unfold Tc.flowIn
    have hmj : (Tc.zero : Tc K).mass j + moleFlow r.outflow * t.frac j * g.mw j =
        s1.inflow.frac j * moleFlow r.outflow * g.mw j := by
      rw [htf j hj]
      show (0 : K) + _ = _
      ring
    obtain ⟨-, u2, -⟩ := tc_update_spec (g := g) (moles := moleFlow r.outflow) (j := j) (t := { (Tc.zero : Tc K) with
        mass := fun i => (Tc.zero : Tc K).mass i + moleFlow r.outflow * t.frac i * g.mw i }) hmpos (hw j hj) (by
      show Enough g j _ ((Tc.zero : Tc K).mass j + moleFlow r.outflow * t.frac j * g.mw j)
      rw [hmj]
      rcases c16 hins j hj with h | h
      · left; rw [h]; ring
      · right; exact mul_le_mul_of_nonneg_right (mul_le_mul_of_nonneg_right h hmpos.le) (hw j hj).le)
    have : _ = s1.inflow.frac j * moleFlow r.outflow * g.mw j := u2.trans hmj
    exact mul_right_cancel₀ hmpos.ne' (mul_right_cancel₀ (hw j hj).ne' this)
  have hstep : s1.integrateFlows th g w.dt = some { s1 with
      fluid := r
      content := Tc.limitPositive g r.content.mole (traceNoVolume s1)
      outflow := traceFinish g (amounts w.dt s1.fluid) r (Tc.limitPositive g r.content.mole (traceNoVolume s1))
        (traceStart th g (amounts w.dt s1.fluid) s1) } := by
    unfold TNode.integrateFlows
    simp only [r1, if_neg hv1]
  refine ⟨{ s1 with
      fluid := r
      content := Tc.limitPositive g r.content.mole (traceNoVolume s1)
      outflow := traceFinish g (amounts w.dt s1.fluid) r (Tc.limitPositive g r.content.mole (traceNoVolume s1))
        (traceStart th g (amounts w.dt s1.fluid) s1) }, ?_, ?_⟩
  · unfold traceStep
    rw [c1]
    show (ops.foldl (TCollect.run th g) s0).integrateFlows th g dt = _
    rw [← hs1, ← hwdt]; exact hstep
  · refine ⟨?_, fun j hj => ?_⟩
    · unfold nodeStep
      rw [c2]
      show integrateFlows th dt ((plain ops).foldl (Collect.run th) f0) = _
      rw [← c5, ← hwdt]; exact r1
    · obtain ⟨k1, k2⟩ := hcontent j hj
      have k3 := hfinish _ (fun j hj => (hcontent j hj).2) j hj
      have k4 := c15.some hins j hj
      rw [c9, hwdt] at k4
      refine ⟨k1, k3.trans k2.symm, ?_, ?_⟩
      · show (Tc.limitPositive g r.content.mole (traceNoVolume s1)).frac j * _ * _ = _
        rw [k2]; exact k4
      · intro he
        rw [tcTaken_eq, ← hwd, he]
        show (traceFinish g (amounts w.dt s1.fluid) r (Tc.limitPositive g r.content.mole (traceNoVolume s1))
          (traceStart th g (amounts w.dt s1.fluid) s1)).frac j * _ * _ = _
        rw [k3]; exact k4

/-! ## A concrete case and the limits -/

/-- Two trace compounds. -/
def twoTraces : TcConfig ℚ := { n := 2, mw := fun j => if j = 0 then 10 else 20 }

/-- Trace compounds with these mole fractions in so many moles. -/
def traceOf (f0 f1 moles : ℚ) : Tc ℚ :=
  { mass := fun j => (if j = 0 then f0 else f1) * moles * twoTraces.mw j
    frac := fun j => if j = 0 then f0 else f1 }

/-- A node of this volume with a tank's fluid and these trace compounds. -/
def tracedTank (x mass volume f0 f1 : ℚ) : TNode ℚ :=
  { fluid := { tank x mass with volume := volume }
    content := traceOf f0 f1 (tank x mass).content.mole
    inflow := Tc.zero, outflow := Tc.zero, rates := fun _ => 0 }

theorem traceReady_tank {x m v f0 f1 : ℚ} (hx : 0 ≤ x ∧ x ≤ 1) (hm : 0 ≤ m) (h0 : f0 = 0 ∨ dblEps ≤ f0)
    (h1 : f1 = 0 ∨ dblEps ≤ f1) : TraceReady twoTraces (tracedTank x m v f0 f1) := by
  have hr := ready_tank hx hm
  have hmole : 0 ≤ (tank x m).content.mole := by
    show 0 ≤ m * (x / 2 + (1 - x) / 4)
    have : 0 < x / 2 + (1 - x) / 4 := by linarith [hx.1, hx.2]
    positivity
  have hd := dblEps_pos (K := ℚ)
  have hn : ∀ f : ℚ, (f = 0 ∨ dblEps ≤ f) → 0 ≤ f := by
    intro f hf
    rcases hf with h | h
    · exact h.ge
    · exact hd.le.trans h
  refine ⟨⟨hr.weights, hr.mixed, hr.content, hr.flow, hr.moles, hr.mass, hr.inflow, hr.outflow⟩, ?_⟩
  intro j hj
  have hj' : j = 0 ∨ j = 1 := by have : j < 2 := hj; omega
  rcases hj' with rfl | rfl
  · exact ⟨mul_nonneg (mul_nonneg (hn _ h0) hmole) (by norm_num [twoTraces]), rfl, h0⟩
  · exact ⟨mul_nonneg (mul_nonneg (hn _ h1) hmole) (by norm_num [twoTraces]), rfl, h1⟩

/-- Some calls: a flow with trace compounds, one of them given on its own, the other removed, and a flux out. -/
def traceOps : List (TCollect ℚ) :=
  [.inflow (twoFluids (1/4) 3 0) (traceOf (1/50) (1/100) 0) 2, .trace 0 3, .schedule 1, .trace 1 (-1/10), .heat 5]

theorem tins_one {src : Poly ℚ} {tc : Tc ℚ} {rate : ℚ} {pre suf : List (Poly ℚ × Tc ℚ × ℚ)}
    (h : [(src, tc, rate)] = pre ++ suf) : pre = [] ∨ pre = [(src, tc, rate)] := by
  cases pre with
  | nil => exact Or.inl rfl
  | cons a l =>
    right
    rw [List.cons_append] at h
    injection h with h1 h2
    rw [← h1]
    have : l = [] := by
      have := h2.symm
      rw [List.append_eq_nil_iff] at this
      exact this.1
    rw [this]

/-- Non-vacuity: the hypotheses of the theorems hold for a node of 8 kg and these calls. -/
example : TraceReady twoTraces (tracedTank (1/2) 8 1 (1/100) (1/200)) ∧ 0 < (tracedTank (1/2) 8 1 (1/100) (1/200)).fluid.volume ∧
    TraceFine twoTraces (1/2) traceOps (tracedTank (1/2) 8 1 (1/100) (1/200)) := by
  have two : ∀ i, i < 2 → i = 0 ∨ i = 1 := by intro i hi; omega
  refine ⟨traceReady_tank (by norm_num) (by norm_num) (Or.inr (by norm_num [dblEps])) (Or.inr (by norm_num [dblEps])),
    by decide +kernel, ?_, ?_, ?_⟩
  · intro a ha
    have : a = (twoFluids (1/4) 3 0, traceOf (1/50) (1/100) 0, 2) := by simpa [tins, traceOps] using ha
    subst this
    refine ⟨⟨rfl, fun i _ => ⟨rfl, rfl⟩⟩, mixed_two _ _ (by norm_num), fun i _ => rfl, ?_, ?_⟩
    · simp only [dblEps]; norm_num
    · intro i hi
      right
      rcases two i hi with rfl | rfl <;> (simp only [twoFluids, minFlowRate, dblEps]; norm_num [abs_of_pos])
  · exact ⟨⟨by decide +kernel, by decide +kernel, by decide +kernel, by decide +kernel, by decide +kernel, by decide +kernel⟩,
      by decide +kernel, by decide +kernel⟩
  · refine ⟨by decide +kernel, ?_, Or.inr (Or.inr (by decide +kernel)), ?_, ?_, ?_, Or.inl (by decide +kernel)⟩
    · intro pre suf h j hj
      rcases tins_one h with rfl | rfl
      · exact Or.inl rfl
      · right
        rcases two j hj with rfl | rfl <;> decide +kernel
    · intro j hj
      rcases two j hj with rfl | rfl <;> exact Or.inr (by decide +kernel)
    · intro j hj
      rcases two j hj with rfl | rfl <;> exact Or.inr (by decide +kernel)
    · intro j hj
      rcases two j hj with rfl | rfl <;> exact Or.inr (by decide +kernel)

/-- Masses of the trace compounds, and the mole fractions of the outflow. -/
def traceAfter (r : Option (TNode ℚ)) : Option (List ℚ) :=
  r.map (fun q => [q.content.mass 0, q.content.mass 1, q.outflow.frac 0, q.outflow.frac 1])

/-- Half a mole of three leaves, one kilogram of 5/16 moles flows in, and 3/2 kg of one compound are given. -/
example : traceAfter (traceStep plainThermo twoTraces (1/2) traceOps (tracedTank (1/2) 8 1 (1/100) (1/200))) =
    some [3 / 10 - 1 / 20 + 1 / 16 + 3 / 2, 3 / 10 - 1 / 20 + 1 / 16 - 1 / 20, 1 / 100, 1 / 200] := by decide +kernel

/-- A node of three halves moles through which one mole flows, with trace compounds in the contents and the inflow: it
gives off 3/20 kg from the contents and 1/5 kg from the inflow, and keeps 2/5 kg. -/
example : traceAfter (traceStep plainThermo twoTraces 1
      [.inflow (twoFluids 1 1 0) (traceOf (1/50) 0 0) 6, .schedule (5/2)] (tracedTank 1 3 1 (1/100) 0)) =
    some [2 / 5, 0, (3 / 20 + 1 / 5) / (5 / 2) / 10, 0] := by decide +kernel

/-- A node without volume. -/
example : traceAfter (traceStep plainThermo twoTraces 1
      [.inflow (twoFluids 1 1 0) (traceOf (1/50) (1/100) 0) 6, .schedule 3] (tracedTank 1 0 0 (1/10) 0)) =
    some [0, 0, 1 / 50, 1 / 100] := by decide +kernel

/-- Non-vacuity: the hypotheses of the theorem on nodes without volume hold for it. -/
example :
    let ops : List (TCollect ℚ) := [.inflow (twoFluids 1 1 0) (traceOf (1/50) (1/100) 0) 6, .schedule 3]
    let s := tracedTank 1 0 0 (1/10) 0
    Ready s.fluid ∧ ¬ 0 < s.fluid.volume ∧ s.fluid.content.mole = 0 ∧
    (∀ a ∈ tins ops, Addable s.fluid.content (a.1, a.2.2)) ∧ tins ops ≠ [] ∧ Asked (traceFlows 1 ops) s.fluid.content ∧
    0 < (outs (plain ops)).sum ∧
    (∀ i, i < s.fluid.content.n → (traceFlows 1 ops).inPart i = 0 ∨
      dblEps * dblEps * (traceFlows 1 ops).inMass ≤ (traceFlows 1 ops).inPart i) ∧
    (∀ pre suf, tins ops = pre ++ suf → ∀ j, j < twoTraces.n →
      tcFlow pre j = 0 ∨ dblEps * molFlow s.fluid.content pre ≤ tcFlow pre j) := by
  have two : ∀ i, i < 2 → i = 0 ∨ i = 1 := by intro i hi; omega
  refine ⟨(traceReady_tank (by norm_num) (by norm_num) (Or.inr (by norm_num [dblEps])) (Or.inl rfl)).fluid, by decide +kernel,
    by decide +kernel, ?_, List.cons_ne_nil _ _, ?_, by decide +kernel, by decide +kernel, ?_⟩
  · intro a ha
    have : a = (twoFluids 1 1 0, traceOf (1/50) (1/100) 0, 6) := by simpa [tins] using ha
    subst this
    exact ⟨⟨rfl, fun i _ => ⟨rfl, rfl⟩⟩, mixed_two _ _ (by norm_num), fun i _ => rfl, by decide +kernel,
      by unfold NoTinyParts; decide +kernel⟩
  · exact ⟨by decide +kernel, by decide +kernel, by decide +kernel, by decide +kernel, by decide +kernel, by decide +kernel⟩
  · intro pre suf h j hj
    rcases tins_one h with rfl | rfl
    · exact Or.inl rfl
    · right
      rcases two j hj with rfl | rfl <;> decide +kernel

/-- A node that gives and its outflow when links look at it. -/
def giver : TNode ℚ := tracedTank (1/2) 8 1 (1/100) (1/200)

/-- After `resetFlows`. -/
def giverReset : TNode ℚ := giver.resetFlows.getD giver

/-- Non-vacuity: the hypotheses of the theorem on two nodes hold for two tanks and a flux of one mole per second. -/
example :
    let ops : List (TCollect ℚ) := [.inflow giverReset.fluid.outflow giverReset.outflow (1 * giverReset.fluid.outflow.mweight)]
    giver.resetFlows = some giverReset ∧ giverReset.fluid.outflow.mweight ≠ 0 ∧
    TraceFine twoTraces 1 [.schedule 1] giver ∧ 1 * 1 ≤ giver.fluid.content.mole ∧
    TraceFine twoTraces 1 ops (tracedTank (1/4) 4 1 0 (1/50)) := by
  have two : ∀ i, i < 2 → i = 0 ∨ i = 1 := by intro i hi; omega
  refine ⟨rfl, by decide +kernel, ⟨?_, ?_, ?_⟩, by decide +kernel, ⟨?_, ?_, ?_⟩⟩
  · intro a ha; simp [tins] at ha
  · exact ⟨⟨by decide +kernel, by decide +kernel, by decide +kernel, by decide +kernel, by decide +kernel, by decide +kernel⟩,
      by decide +kernel, by decide +kernel⟩
  · refine ⟨by decide +kernel, ?_, Or.inl rfl, ?_, ?_, ?_, Or.inl (by decide +kernel)⟩
    · intro pre suf h j hj
      have : pre = [] := by
        have := h.symm
        rw [show tins ([.schedule 1] : List (TCollect ℚ)) = [] from rfl, List.append_eq_nil_iff] at this
        exact this.1
      rw [this]; exact Or.inl rfl
    · intro j hj
      rcases two j hj with rfl | rfl <;> exact Or.inr (by decide +kernel)
    · intro j hj
      rcases two j hj with rfl | rfl <;> exact Or.inr (by decide +kernel)
    · intro j hj
      rcases two j hj with rfl | rfl <;> exact Or.inr (by decide +kernel)
  · intro a ha
    have : a = (giverReset.fluid.outflow, giverReset.outflow, 1 * giverReset.fluid.outflow.mweight) := by
      simpa [tins] using ha
    subst this
    exact ⟨⟨rfl, by decide +kernel⟩, ⟨by decide +kernel, by decide +kernel, by decide +kernel, by decide +kernel⟩,
      fun i hi => by rcases two i hi with rfl | rfl <;> decide +kernel, by decide +kernel,
      by unfold NoTinyParts; decide +kernel⟩
  · exact ⟨⟨by decide +kernel, by decide +kernel, by decide +kernel, by decide +kernel, by decide +kernel, by decide +kernel⟩,
      by decide +kernel, by decide +kernel⟩
  · refine ⟨by decide +kernel, ?_, Or.inr (Or.inl (by decide +kernel)), ?_, ?_, ?_, Or.inl (by decide +kernel)⟩
    · intro pre suf h j hj
      rcases tins_one h with rfl | rfl
      · exact Or.inl rfl
      · right
        rcases two j hj with rfl | rfl <;> decide +kernel
    · intro j hj
      rcases two j hj with rfl | rfl <;> exact Or.inr (by decide +kernel)
    · intro j hj
      rcases two j hj with rfl | rfl <;> exact Or.inr (by decide +kernel)
    · intro j hj
      rcases two j hj with rfl | rfl <;> exact Or.inl (by decide +kernel)

/-- **C56** (limit). Trace compounds given on their own to a node without volume are lost. -/
theorem c56_no_volume_lost : traceAfter (traceStep plainThermo twoTraces 1
      [.inflow (twoFluids 1 1 0) (traceOf 0 0 0) 6, .trace 0 1, .schedule 3] (tracedTank 1 0 0 0 0)) =
    some [0, 0, 0, 0] := by decide +kernel

/-- **C56** (limit). Trace compounds given on their own to a node that overflows multiply: 1 kg is given, links take
half a kilogram with the fluid that flows through, and 1 kg is there afterwards. -/
theorem c56_overflow_creates :
    let ops : List (TCollect ℚ) := [.inflow (twoFluids 1 1 0) (traceOf 0 0 0) 6, .schedule (5/2), .trace 0 1]
    (traceStep plainThermo twoTraces 1 ops (tracedTank 1 3 1 0 0)).map
      (fun q => [tcGiven 1 ops 0, q.content.mass 0, tcTaken twoTraces 1 ops q.outflow 0]) = some [1, 1, 1 / 2] := by
  decide +kernel

/-- **C56** (limit). Trace compounds that are diluted below a mole fraction of `DBL_EPSILON` vanish. -/
theorem c56_dilution_erases : traceAfter (traceStep plainThermo twoTraces 1
      [.inflow (twoFluids 1 1 0) (traceOf 0 0 0) 6] (tracedTank 1 3 1 dblEps 0)) = some [0, 0, 0, 0] := by decide +kernel

/-- **C56** (limit). A link that removes more than there is gets what it asked for, and the node just holds none. -/
theorem c56_removal_clipped :
    (tracedTank 1 3 1 (1/100) 0).content.mass 0 = 3 / 20 ∧
    traceAfter (traceStep plainThermo twoTraces 1 [.trace 0 (-1)] (tracedTank 1 3 1 (1/100) 0)) = some [0, 0, 0, 0] := by
  decide +kernel

/-- **C56** (limit). The order of the links' calls matters when mole fractions are small: a flow with a mole fraction of
half `DBL_EPSILON` counts if it comes after one with more, and not if it comes first. -/
theorem c56_order_small :
    (traceStep plainThermo twoTraces 1 [.inflow (twoFluids 1 1 0) (traceOf (dblEps / 2) 0 0) 6,
      .inflow (twoFluids 1 1 0) (traceOf 1 0 0) 6] (tracedTank 1 3 1 0 0)).map (fun q => q.content.mass 0) = some 30 ∧
    (traceStep plainThermo twoTraces 1 [.inflow (twoFluids 1 1 0) (traceOf 1 0 0) 6,
      .inflow (twoFluids 1 1 0) (traceOf (dblEps / 2) 0 0) 6] (tracedTank 1 3 1 0 0)).map (fun q => q.content.mass 0) =
      some (30 + 15 * dblEps) := by decide +kernel

/-- **C56** (limit). The trace compounds of a flow of at most `DBL_EPSILON` kg in a step do not count. -/
theorem c56_small_inflow : traceAfter (traceStep plainThermo twoTraces (1/2)
      [.inflow (twoFluids 1 0 0) (traceOf 1 0 0) dblEps] (tracedTank 1 1 1 0 0)) = some [0, 0, 0, 0] := by decide +kernel

/-- **C56**. A link that names a compound that is not there gets an exception, and no other does. -/
theorem c56_index {g : TcConfig K} (s : TNode K) (i : Int) (rate : K) :
    s.collectTc g i rate = none ↔ i < 0 ∨ (g.n : Int) ≤ i := by
  unfold TNode.collectTc
  by_cases h : 0 ≤ i ∧ i < (g.n : Int)
  · rw [if_pos h]
    constructor
    · intro c; cases c
    · intro c; omega
  · rw [if_neg h]
    exact ⟨fun _ => by omega, fun _ => rfl⟩

end Gunns.Props
