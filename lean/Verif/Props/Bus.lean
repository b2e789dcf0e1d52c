import Verif.Interop.BusRun
import Mathlib.Tactic.FieldSimp

/-!
# The two-way fluid bus (C33)

Two sides exchange their data over a channel with any delay, which may lose data, and each decides by itself whether
it supplies or demands.
-/

set_option linter.unusedSectionVars false

namespace Gunns.Props
open Gunns.Interop Gunns

variable {K : Type _} [Field K] [LinearOrder K] [IsStrictOrderedRing K]

/-- The side is in the demand role. -/
def demands (s : Sys K) (x : Bool) : Prop := (s.side x).outD.demand = true

/-- The last data that the side received were sent in the demand role. -/
def seesDemand (s : Sys K) (x : Bool) : Prop := (s.side x).inD.demand = true

/-- C33: without forced roles, both sides are in demand only while one of them has not yet received data sent in
the other's demand role: whatever is delayed or lost, and however the capacitances change. -/
theorem c33_no_mutual_demand (m : Bool → Bool) (n t : Nat) (es : List (Event K))
    (he : ∀ e ∈ es, e.Good ∧ e.role = .none) :
    let s := (Sys.init m n t).after es
    ¬ (demands s true ∧ demands s false ∧ seesDemand s true ∧ seesDemand s false) := by
  rintro s ⟨h1, h2, h3, h4⟩
  have hI := (inv_after (inv_init (K := K) m n t) he).unseen h1 h2
  have h3' : (s.side true).inD.demand = true := h3
  have h4' : (s.side false).inD.demand = true := h4
  rcases hI with h | h
  · rw [h3'] at h; cases h
  · rw [h4'] at h; cases h

/-- An endless run in which both sides keep going and what a side sends is received, or something newer is. -/
structure Lively (s : Sys K) (e : Nat → Event K) : Prop where
  steps : ∀ x t, ∃ t', t ≤ t' ∧ (e t').who = x
  arrives : ∀ x t, ∃ t', t ≤ t' ∧ ((s.run e t).side x).outD.frame ≤ ((s.run e t').side (!x)).inD.frame

/-- C33: once the capacitances stop changing the roles settle: one side supplies and the other demands for ever.
`a` is the side with the smaller capacitance, or the only master if the capacitances are equal; it ends in demand
if the other capacitance is more than 5/4 of its own. -/
theorem c33_settles (m : Bool → Bool) (n t : Nat) (e : Nat → Event K) (he : ∀ t, (e t).Good ∧ (e t).role = .none)
    (hl : Lively (Sys.init m n t) e) (a : Bool) (c : Bool → K) (T : Nat) (hc : ∀ t, T ≤ t → (e t).cap = c (e t).who)
    (hless : c a < c (!a) ∨ (c a = c (!a) ∧ m a = true ∧ m (!a) = false)) :
    ∃ T', ((∀ u, T' ≤ u → demands ((Sys.init m n t).run e u) a ∧ ¬ demands ((Sys.init m n t).run e u) (!a)) ∨
        (∀ u, T' ≤ u → ¬ demands ((Sys.init m n t).run e u) a ∧ demands ((Sys.init m n t).run e u) (!a))) ∧
      (5 / 4 * c a < c (!a) → ∀ u, T' ≤ u → demands ((Sys.init m n t).run e u) a) := by
  obtain ⟨T', r, h1, h2⟩ := roles_settle (inv_init (K := K) m n t) he hl.steps hl.arrives hc hless
  refine ⟨T', ?_, ?_⟩
  · cases r
    · right
      intro u hu
      obtain ⟨g1, g2⟩ := h1 u hu
      exact ⟨(fun h => by unfold demands at h; rw [g1] at h; cases h), g2⟩
    · left
      intro u hu
      obtain ⟨g1, g2⟩ := h1 u hu
      exact ⟨g1, (fun h => by unfold demands at h; rw [g2] at h; cases h)⟩
  · intro hlt u hu
    have := h2 (by unfold ratio; linarith)
    rw [this] at h1
    exact (h1 u hu).1

/-- A side with capacitance `c` and mastership `m` has a reason to demand of a side with capacitance `c'`. -/
def shouldDemand (c c' : K) (m : Bool) : Prop := c < c' ∨ (m = true ∧ c = c')

/-- C33: with capacitances that are constant from the start, and after each side has done a frame without data, a
side without a reason to demand never demands, and a side with one, facing a side without one, demands from the frame on in
which it first has data. -/
theorem c33_startup (m : Bool → Bool) (n t : Nat) (c : Bool → K) (es es' : List (Event K))
    (he : ∀ e ∈ es ++ es', e.Good ∧ e.role = .none ∧ e.cap = c e.who) (h0 : ∀ e ∈ es, e.count = 0)
    (hboth : ∀ x, ∃ e ∈ es, e.who = x) :
    let s := (Sys.init m n t).after (es ++ es')
    ∀ x, (¬ shouldDemand (c x) (c (!x)) (m x) → ¬ demands s x) ∧
      (shouldDemand (c x) (c (!x)) (m x) → ¬ shouldDemand (c (!x)) (c x) (m (!x)) →
        (demands s x ↔ 1 ≤ (s.side x).inD.frame)) := by
  have hc0 : ∀ x, 0 ≤ c x := by
    intro x
    obtain ⟨e, h1, h2⟩ := hboth x
    have := he e (by simp [h1])
    rw [← h2, ← this.2.2]
    exact this.1.cap
  have main : Started c m ((Sys.init m n t).after (es ++ es')) := by
    induction es' using List.reverseRecOn with
    | nil =>
      rw [List.append_nil] at he ⊢
      obtain ⟨h1, h2⟩ := fresh_after (m := m) (n := n) (t := t)
        (fun e h => ⟨(he e h).1, (he e h).2.1, (he e h).2.2, h0 e h⟩)
      refine started_of_fresh h1 (fun x => ?_)
      obtain ⟨e, g1, g2⟩ := hboth x
      rw [← g2]; exact h2 e g1
    | append_singleton es' e ih =>
      have he' : ∀ e' ∈ es ++ es', e'.Good ∧ e'.role = .none ∧ e'.cap = c e'.who := by
        intro e' h'
        apply he e'
        rw [← List.append_assoc]
        exact List.mem_append_left _ h'
      have hs := ih he'
      rw [← List.append_assoc, Sys.after_concat]
      have hlast := he e (by simp)
      exact started_step (inv_after (inv_init m n t) (fun e' h' => ⟨(he' e' h').1, (he' e' h').2.1⟩)) hs
        hlast.1 hlast.2.1 hlast.2.2 hc0
  intro s x
  refine ⟨fun hno h => ?_, fun hyes hno => main.other x hno hyes⟩
  have := (main.role x hno).1
  unfold demands at h
  rw [this] at h
  cases h

/-- Inputs of a side that is forced to supply. -/
theorem forced_supply {d : Bus K} (h : d.forced = .supply) : flipModesOnInput d =
    if d.outD.demand = true then { d with
      since := 0
      outD := { d.outD with demand := false } }
    else if d.inD.valid = true then { d with last := d.inD.demand } else d := by
  have n1 : ¬ (d.forced = .demand ∧ d.inDemand = false) := by rw [h]; rintro ⟨h, -⟩; cases h
  have f1 : flipToDemandMode d = d := by unfold flipToDemandMode; rw [if_neg (fun hn => hn h)]
  have f2 : flipToSupplyMode d = { d with
      since := 0
      outD := { d.outD with demand := false } } := by
    unfold flipToSupplyMode; rw [if_pos (by rw [h]; intro h; cases h)]
  unfold flipModesOnInput
  rw [if_neg n1]
  by_cases hd : d.outD.demand = true
  · rw [if_pos (show d.forced = .supply ∧ d.inDemand = true from ⟨h, hd⟩), if_pos hd, f2]
  · rw [if_neg (show ¬ (d.forced = .supply ∧ d.inDemand = true) from fun hh => hd hh.2), if_neg hd,
      if_neg (fun hh : d.outD.demand = true ∧ _ => hd hh.1), f1]
    simp only [ite_self]

/-- Inputs of a side that is forced to demand. -/
theorem forced_demand {d : Bus K} (h : d.forced = .demand) : flipModesOnInput d =
    if d.outD.demand = false then { d with
      since := 0
      outD := { d.outD with demand := true } }
    else if d.inD.valid = true then { d with last := d.inD.demand } else d := by
  have f1 : flipToSupplyMode d = d := by unfold flipToSupplyMode; rw [if_neg (fun hn => hn h)]
  have f2 : flipToDemandMode d = { d with
      since := 0
      outD := { d.outD with demand := true } } := by
    unfold flipToDemandMode; rw [if_pos (by rw [h]; intro h; cases h)]
  unfold flipModesOnInput
  by_cases hd : d.outD.demand = false
  · rw [if_pos (show d.forced = .demand ∧ d.inDemand = false from ⟨h, hd⟩), if_pos hd, f2]
  · rw [if_neg (show ¬ (d.forced = .demand ∧ d.inDemand = false) from fun hh => hd hh.2), if_neg hd,
      if_neg (show ¬ (d.forced = .supply ∧ d.inDemand = true) by rw [h]; rintro ⟨h, -⟩; cases h), f1,
      if_neg (fun hh : d.inD.demand = false ∧ d.outD.demand = false => hd hh.2)]
    simp only [ite_self]

/-- C33: a forced role is taken in the same frame, whatever is received. -/
theorem c33_forced (recv : Option (Data K)) (role : Role) (fluid flow : Given K) (cap : K) (b : Bus K)
    (hr : role ≠ .none) : ((frame recv role fluid flow cap b).outD.demand = true ↔ role = .demand) := by
  have hset : ∀ c : Bus K, ((if c.inDemand = true then setFlowState flow c else setFluidState fluid c).outD.demand =
      c.outD.demand) ∧ (if c.inDemand = true then setFlowState flow c else setFluidState fluid c).forced = c.forced := by
    intro c; rw [setState_eq]; exact ⟨rfl, rfl⟩
  have hout : ∀ c : Bus K, (processOutputs cap c).outD.demand =
      if c.outD.demand = false ∧ c.latency < c.since ∧ cap * ratio < c.inD.cap ∧ c.forced ≠ .supply then true
      else c.outD.demand := by
    intro c
    unfold processOutputs flipModesOnCapacitance flipToDemandMode Bus.inDemand
    simp only
    by_cases h1 : c.outD.demand = false
    · rw [if_pos h1]
      by_cases h2 : c.latency < c.since ∧ cap * ratio < c.inD.cap
      · rw [if_pos h2]
        by_cases h3 : c.forced ≠ .supply
        · rw [if_pos h3, if_pos ⟨h1, h2.1, h2.2, h3⟩]
        · rw [if_neg h3, if_neg (fun h => h3 h.2.2.2)]
      · rw [if_neg h2, if_neg (fun h => h2 ⟨h.2.1, h.2.2.1⟩)]
    · rw [if_neg h1, if_neg (fun h => h1 h.1)]
  have hin : ∀ c : Bus K, c.forced = role → ((processInputs c).outD.demand = true ↔ role = .demand) ∧
      (processInputs c).forced = role := by
    intro c hc
    unfold processInputs
    have hc' : (updateFrameCounts c).forced = role := hc
    generalize updateFrameCounts c = d at hc'
    cases role with
    | none => exact absurd rfl hr
    | supply =>
      rw [forced_supply hc']
      split_ifs
      · exact ⟨by simp, hc'⟩
      · rename_i h _
        rw [Bool.not_eq_true] at h
        exact ⟨by simp [h], hc'⟩
      · rename_i h _
        rw [Bool.not_eq_true] at h
        exact ⟨by simp [h], hc'⟩
    | demand =>
      rw [forced_demand hc']
      split_ifs
      · exact ⟨by simp, hc'⟩
      · rename_i h _
        rw [Bool.not_eq_false] at h
        exact ⟨by simp [h], hc'⟩
      · rename_i h _
        rw [Bool.not_eq_false] at h
        exact ⟨by simp [h], hc'⟩
  have key : ∀ c : Bus K, c.forced = role →
      ((processOutputs cap (if (processInputs c).inDemand = true then setFlowState flow (processInputs c)
        else setFluidState fluid (processInputs c))).outD.demand = true ↔ role = .demand) := by
    intro c hc
    obtain ⟨h1, h2⟩ := hin c hc
    obtain ⟨h3, h4⟩ := hset (processInputs c)
    rw [hout, h3, h4, h2]
    cases role with
    | none => exact absurd rfl hr
    | supply => rw [if_neg (fun h => h.2.2.2 rfl)]; exact h1
    | demand => rw [if_neg (fun h => by rw [h1.2 rfl] at h; cases h.1)]; exact h1
  unfold frame
  cases recv with
  | none => exact key _ rfl
  | some d => exact key _ rfl

/-- A call of `setFluidState` (`true`) or of `setFlowState` (`false`). -/
def putOne (b : Bus K) (c : Bool × Given K) : Bus K := if c.1 = true then setFluidState c.2 b else setFlowState c.2 b

/-- C33: calls that do not fit the role change nothing: whatever calls the local model makes, the outcome is that of the
calls that fit, `setFluidState` in the supply role and `setFlowState` in the demand role. -/
theorem c33_role_calls (b : Bus K) (cs : List (Bool × Given K)) :
    cs.foldl putOne b = (cs.filter (fun c => c.1 != b.outD.demand)).foldl putOne b ∧
      ∀ c, c.1 ≠ b.outD.demand → ((putOne b c).outD.source, (putOne b c).outD.energy) = (c.2.value, c.2.energy) := by
  have one : ∀ (b : Bus K) (c : Bool × Given K), (c.1 = b.outD.demand → putOne b c = b) ∧
      (putOne b c).outD.demand = b.outD.demand := by
    intro b c
    unfold putOne setFluidState setFlowState Bus.inDemand
    cases h1 : c.1 <;> cases h2 : b.outD.demand <;> simp [h2, putState]
  constructor
  · induction cs generalizing b with
    | nil => rfl
    | cons c cs ih =>
      rw [List.foldl_cons, ih, (one b c).2, List.filter_cons]
      by_cases h : c.1 = b.outD.demand
      · rw [(one b c).1 h, if_neg (by simp [h])]
      · rw [if_pos (by simpa using h), List.foldl_cons]
  · intro c hc
    unfold putOne setFluidState setFlowState Bus.inDemand
    cases h1 : c.1 <;> cases h2 : b.outD.demand <;> rw [h1, h2] at hc <;> first | exact absurd rfl hc | rfl

/-- Fractions as received in an array of `n`, of an array of `size` sent over one of `k`. -/
def carried (n k size : Nat) (f : Nat → K) (i : Nat) : K := if i < n ∧ i < k ∧ i < size then f i else 0

/-- C33: what one side sets in a frame the other gets, if the roles are complementary: the fluid state of a side that
supplies, the flow state of one that demands, and a flow of zero from one that has just changed to demand when its
capacitance dropped. -/
theorem c33_exchange {recv : Option (Data K)} {e : Event K} {b r : Bus K} (he : e.Good)
    (hr : r.inD = (frame recv .none e.fluid e.flow e.cap b).outD) (g : Given K) :
    (¬ r.outD.demand = true → ¬ r.inD.demand = true → getFluidState r g = none ∧ getFlowState r g = none) ∧
    (r.outD.demand = true → r.inD.demand = true → getFluidState r g = none ∧ getFlowState r g = none) ∧
    (r.outD.demand = true → ¬ r.inD.demand = true → getFlowState r g = none ∧ ∃ g', getFluidState r g = some g' ∧
      g'.value = e.fluid.value ∧ g'.energy = e.fluid.energy ∧
      (∀ i, i < g.numFluid → g'.fluid i = carried g.numFluid b.outD.numFluid e.fluid.numFluid e.fluid.fluid i) ∧
      ∀ i, i < g.numTc → g'.tc i = carried g.numTc b.outD.numTc e.fluid.numTc e.fluid.tc i) ∧
    (¬ r.outD.demand = true → r.inD.demand = true → getFluidState r g = none ∧ ∃ g', getFlowState r g = some g' ∧
      ((g'.value = e.flow.value ∧ g'.energy = e.flow.energy ∧
        (∀ i, i < g.numFluid → g'.fluid i = carried g.numFluid b.outD.numFluid e.flow.numFluid e.flow.fluid i) ∧
        ∀ i, i < g.numTc → g'.tc i = carried g.numTc b.outD.numTc e.flow.numTc e.flow.tc i) ∨
       (g'.value = 0 ∧ e.cap * (5 / 4) < (received recv b).cap))) := by
  have hval := frame_valid he recv b
  rw [← hr] at hval
  rw [frame_eq] at hr
  obtain ⟨⟨i1, i2, i3, i4, i5, i6, i7, i8, i9, i10⟩, hcase⟩ := inputs_spec (b := { b with
            forced := .none
            inD := received recv b }) rfl
  generalize hd : received recv b = d at *
  generalize processInputs { b with
            forced := .none
            inD := d } = c at *
  rw [outputs_spec (c := withState e.fluid e.flow c) i6] at hr
  have hcarry : ∀ (n k size : Nat) (f o1 o2 : Nat → K) (i : Nat), i < n →
      copyFractions n (copyFractions k f size o1) k o2 i = carried n k size f i := by
    intro n k size f o1 o2 i hi
    unfold copyFractions carried
    by_cases h1 : i < k <;> by_cases h2 : i < size <;> simp [hi, h1, h2]
  unfold getFluidState getFlowState Bus.inDemand
  rw [hval]
  refine ⟨fun h1 h2 => ?_, fun h1 h2 => ?_, fun h1 h2 => ?_, fun h1 h2 => ?_⟩
  · rw [if_neg (fun h => h1 h.1), if_neg (fun h => h2 h.2.2)]; exact ⟨rfl, rfl⟩
  · rw [if_neg (fun h => by rw [h2] at h; cases h.2.2), if_neg (fun h => by rw [h1] at h; cases h.1)]
    exact ⟨rfl, rfl⟩
  · rw [Bool.not_eq_true] at h2
    rw [if_neg (fun h => by rw [h1] at h; cases h.1), if_pos ⟨h1, rfl, h2⟩]
    refine ⟨rfl, _, rfl, ?_⟩
    split_ifs at hr with h
    · rw [hr] at h2; cases h2
    · have hcd : c.outD.demand = false := by rw [hr] at h2; exact h2
      have hw : withState e.fluid e.flow c = { c with outD := putState e.fluid c.outD } := by
        unfold withState; rw [hcd]; rfl
      rw [hw] at hr
      rw [hr]
      have hn1 : c.outD.numFluid = b.outD.numFluid := i9
      have hn2 : c.outD.numTc = b.outD.numTc := i10
      refine ⟨rfl, rfl, fun i hi => ?_, fun i hi => ?_⟩
      · rw [← hn1]; exact hcarry _ _ _ _ _ _ i hi
      · rw [← hn2]; exact hcarry _ _ _ _ _ _ i hi
  · rw [Bool.not_eq_true] at h1
    rw [if_neg (fun h => by rw [h1] at h; cases h.1), if_pos ⟨h1, rfl, h2⟩]
    refine ⟨rfl, _, rfl, ?_⟩
    split_ifs at hr with h
    · right
      rw [hr]
      refine ⟨rfl, ?_⟩
      have h3 : e.cap * ratio < c.inD.cap := h.2.2
      rw [i3] at h3
      unfold ratio at h3
      exact h3
    · left
      have hcd : c.outD.demand = true := by rw [hr] at h2; exact h2
      have hw : withState e.fluid e.flow c = { c with outD := putState e.flow c.outD } := by
        unfold withState; rw [hcd]; rfl
      rw [hw] at hr
      rw [hr]
      have hn1 : c.outD.numFluid = b.outD.numFluid := i9
      have hn2 : c.outD.numTc = b.outD.numTc := i10
      refine ⟨rfl, rfl, fun i hi => ?_, fun i hi => ?_⟩
      · rw [← hn1]; exact hcarry _ _ _ _ _ _ i hi
      · rw [← hn2]; exact hcarry _ _ _ _ _ _ i hi

/-- C33: a demanding side that moves no more than the limit between its own volume (pressure `p`) and the supplying
side's volume in a step, in the direction of the pressure difference, neither increases nor reverses the difference. -/
theorem c33_demand_limit (dt p f : K) (b : Bus K) (h1 : b.outD.demand = true) (h2 : b.inD.demand = false)
    (hdt : dblEps < dt) (hc : dblEps < b.outD.cap) (hs : dblEps < b.inD.cap) :
    let b' := computeDemandLimit dt p b
    0 < b'.gain ∧ b'.gain ≤ 1 ∧ 0 ≤ b'.limit ∧ (p ≠ b.inD.source → 0 < b'.limit) ∧
    (0 ≤ f → f ≤ b'.limit →
      (b.inD.source ≤ p → b.inD.source + f * dt / b.inD.cap ≤ p - f * dt / b.outD.cap) ∧
      (p ≤ b.inD.source → p + f * dt / b.outD.cap ≤ b.inD.source - f * dt / b.inD.cap)) := by
  intro b'
  have hE := dblEps_pos (K := K)
  have hdt0 : 0 < dt := hE.trans hdt
  have hc0 : 0 < b.outD.cap := hE.trans hc
  have hs0 : 0 < b.inD.cap := hE.trans hs
  set lag : K := min 1 (constA * constB ^ (min 100 (max 1 b.latency)).toNat) with hlag
  set q : K := min ratio (max 1 (b.inD.cap / b.outD.cap)) with hq
  have hg : b'.gain = lag + (1 - lag) * (q - 1) * 4 := by
    show (computeDemandLimit dt p b).gain = _
    unfold computeDemandLimit
    rw [if_pos ⟨h1, h2, hdt, hc, hs⟩]
  have hl : b'.limit = b'.gain * |p - b.inD.source| / (dt * (1 / b.outD.cap + 1 / b.inD.cap)) := by
    rw [hg]
    show (computeDemandLimit dt p b).limit = _
    unfold computeDemandLimit
    rw [if_pos ⟨h1, h2, hdt, hc, hs⟩]
  have lag1 : lag ≤ 1 := min_le_left _ _
  have lag0 : 0 < lag := by
    apply lt_min one_pos
    unfold constA constB
    positivity
  have q1 : 1 ≤ q := le_min (by unfold ratio; norm_num) (le_max_left _ _)
  have q2 : q ≤ 5 / 4 := min_le_left _ _
  have g0 : 0 < b'.gain := by
    rw [hg]
    have : 0 ≤ (1 - lag) * (q - 1) := mul_nonneg (by linarith) (by linarith)
    linarith
  have g1 : b'.gain ≤ 1 := by
    rw [hg]
    have : (1 - lag) * (q - 1) ≤ (1 - lag) * (1 / 4) := mul_le_mul_of_nonneg_left (by linarith) (by linarith)
    linarith
  have hden : 0 < dt * (1 / b.outD.cap + 1 / b.inD.cap) := by positivity
  refine ⟨g0, g1, ?_, ?_, ?_⟩
  · rw [hl]; positivity
  · intro hne
    rw [hl]
    have : 0 < |p - b.inD.source| := abs_pos.2 (sub_ne_zero.2 hne)
    positivity
  · intro hf0 hf
    have key : f * dt / b.outD.cap + f * dt / b.inD.cap ≤ |p - b.inD.source| := by
      have e1 : f * dt / b.outD.cap + f * dt / b.inD.cap = f * (dt * (1 / b.outD.cap + 1 / b.inD.cap)) := by
        field_simp
      rw [e1]
      have e2 : f * (dt * (1 / b.outD.cap + 1 / b.inD.cap)) ≤ b'.gain * |p - b.inD.source| := by
        rw [hl] at hf
        exact (le_div_iff₀ hden).1 hf
      have e3 : b'.gain * |p - b.inD.source| ≤ 1 * |p - b.inD.source| :=
        mul_le_mul_of_nonneg_right g1 (abs_nonneg _)
      linarith
    constructor
    · intro hp
      rw [abs_of_nonneg (by linarith)] at key
      linarith
    · intro hp
      rw [abs_of_nonpos (by linarith)] at key
      linarith

/-! ## Limits -/

/-- Both sides demand, and each has seen the other's demand. -/
structure Stuck (s : Sys K) : Prop where
  role : ∀ x, demands s x
  seen : ∀ x, seesDemand s x ∧ (s.side x).last = true
  chan : ∀ x, ∀ d ∈ s.chan x, d.demand = true

/-- C33 (limit): such a state, once reached, lasts for ever, whatever the capacitances. -/
theorem c33_stuck {s : Sys K} (h : Stuck s) (es : List (Event K)) (he : ∀ e ∈ es, e.role = .none) :
    Stuck (s.after es) := by
  have step : ∀ (s : Sys K) (e : Event K), Stuck s → e.role = .none → Stuck (e.run s) := by
    intro s e h hr
    have hne : (!e.who) ≠ e.who := by cases e.who <;> simp
    have two : ∀ z, z = e.who ∨ z = !e.who := by intro z; cases z <;> cases e.who <;> simp
    have hy : (e.run s).side (!e.who) = s.side (!e.who) := by rw [Event.run_side, if_neg hne]
    have vx := Event.run_view_self e s hr
    have vy := Event.run_view_other e s
    have hview : ∀ x, ∀ d ∈ s.view x, d.demand = true := by
      intro x d hd
      rcases List.mem_cons.1 hd with hd | hd
      · rw [hd]; exact (h.seen x).1
      · exact h.chan x d hd
    have hsub : ((s.view e.who).drop (min e.count (s.chan e.who).length)).Sublist (s.view e.who) := List.drop_sublist _ _
    have hin : ((e.run s).side e.who).inD.demand = true := by
      apply hview e.who
      apply hsub.mem
      rw [← vx]; exact List.mem_cons_self
    have hcur : ((e.run s).side e.who).outD.demand = true ∧ ((e.run s).side e.who).last = true := by
      rw [Event.run_side, if_pos rfl, hr, frame_eq]
      have hin2 : (received ((s.chan e.who).take e.count).getLast? (s.side e.who)).demand = true := by
        have h1 := received_view (s.side e.who).inD (s.chan e.who) e.count
        apply hview e.who
        apply hsub.mem
        unfold Sys.view
        rw [← h1]; exact List.mem_cons_self
      generalize received ((s.chan e.who).take e.count).getLast? (s.side e.who) = d at hin2
      obtain ⟨⟨i1, i2, i3, i4, i5, i6, i7, i8, i9, i10⟩, hcase⟩ := inputs_spec (b := { s.side e.who with
            forced := .none
            inD := d }) rfl
      generalize processInputs { s.side e.who with
            forced := .none
            inD := d } = c at *
      rw [outputs_spec (c := withState e.fluid e.flow c) i6]
      have hr0 : (s.side e.who).outD.demand = true := h.role _
      have hl0 := (h.seen e.who).2
      have hcd : c.outD.demand = true := by
        rcases hcase with ⟨g, -⟩ | ⟨-, -, -, -, -, g⟩ | ⟨g, -⟩
        · rw [g]; exact hr0
        · have g' : (s.side e.who).last = false := g
          rw [hl0] at g'; cases g'
        · have g' : (s.side e.who).outD.demand = false := g
          rw [hr0] at g'; cases g'
      rw [if_neg (fun hh => by
        have h1 : c.outD.demand = false := hh.1
        rw [hcd] at h1; cases h1)]
      refine ⟨hcd, ?_⟩
      show c.last = true
      rw [i8]
      split_ifs
      · exact hin2
      · exact hl0
    refine ⟨fun z => ?_, fun z => ?_, fun z => ?_⟩
    · rcases two z with rfl | rfl
      · exact hcur.1
      · show ((e.run s).side _).outD.demand = true
        rw [hy]; exact h.role _
    · rcases two z with rfl | rfl
      · exact ⟨hin, hcur.2⟩
      · unfold seesDemand
        rw [hy]; exact h.seen _
    · rcases two z with rfl | rfl
      · intro d hd
        apply hview e.who
        apply hsub.mem
        rw [← vx]; exact List.mem_cons_of_mem _ hd
      · intro d hd
        have hd' : d ∈ (e.run s).view (!e.who) := List.mem_cons_of_mem _ hd
        rw [vy, List.mem_append, List.mem_singleton] at hd'
        rcases hd' with hd' | hd'
        · exact hview _ d hd'
        · rw [hd']; exact hcur.1
  induction es generalizing s with
  | nil => exact h
  | cons e es ih =>
    exact ih (step s e h (he e (by simp))) (fun e' h' => he e' (by simp [h']))

/-- A given state for examples. -/
def someState (v : ℚ) : Given ℚ :=
  { energy := 300, numFluid := 1, numTc := 0, fluid := fun _ => 1, tc := fun _ => 0, value := v }

/-- A frame of side `x` that takes `k` items. -/
def someFrame (x : Bool) (k : Nat) (role : Role) (cap : ℚ) : Event ℚ :=
  { who := x, count := k, role := role, fluid := someState 100, flow := someState 1, cap := cap }

/-- Frames for examples are good. -/
theorem someFrame_good (x : Bool) (k : Nat) (role : Role) {cap : ℚ} (h : 0 ≤ cap) : (someFrame x k role cap).Good :=
  ⟨⟨by show (0 : ℚ) < 300; norm_num, by show (0 : ℚ) < 300; norm_num⟩, by show (0 : ℚ) ≤ 100; norm_num, h,
    fun _ => ⟨by show (0 : ℚ) ≤ 1; norm_num, by show (0 : ℚ) ≤ 1; norm_num⟩, fun _ => ⟨le_refl _, le_refl _⟩⟩

/-- Side `true` has the smaller capacitance and demands. The other side is forced to demand as well; when both have seen that, the
force is released. -/
def forcedRun : List (Event ℚ) :=
  [someFrame true 0 .none 1, someFrame false 0 .none 4, someFrame true 1 .none 1, someFrame false 2 .none 4,
   someFrame false 0 .demand 4, someFrame true 1 .demand 1, someFrame true 2 .demand 1, someFrame false 3 .demand 4,
   someFrame true 3 .none 1, someFrame false 3 .none 4]

/-- C33 (limit): forcing both sides to demand and releasing them leads to that state. -/
theorem c33_stuck_after_force : Stuck ((Sys.init (fun x => x) 1 0).after forcedRun) := by
  have hr : ∀ x, (((Sys.init (fun x => x) 1 0).after forcedRun).side x).outD.demand = true ∧
      (((Sys.init (fun x => x) 1 0).after forcedRun).side x).inD.demand = true ∧
      (((Sys.init (fun x => x) 1 0).after forcedRun).side x).last = true := by decide +kernel
  have hch : ∀ x, ((((Sys.init (fun x => x) 1 0).after forcedRun).chan x).all (fun d => d.demand)) = true := by
    decide +kernel
  exact ⟨fun x => (hr x).1, fun x => (hr x).2, fun x d hd => List.all_eq_true.1 (hch x) d hd⟩

/-- C33 (limit): a side that has data in its very first frame compares the other's capacitance with its own initial
one, which is zero, and so demands although it has the larger capacitance; the sides then stay so. -/
theorem c33_first_frame :
    let s := (Sys.init (fun x => x) 1 0).after [someFrame true 0 .none 4, someFrame false 1 .none 5]
    demands s false ∧ ¬ demands s true ∧
    ∀ n ∈ [1, 2, 5, 10], let s' := s.after ((List.range n).flatMap (fun _ => [someFrame true 1 .none 4, someFrame false 1 .none 5]))
      demands s' false ∧ ¬ demands s' true := by
  unfold demands
  decide +kernel

/-- C33 (limit): a side forced to supply sends a pressure of zero, whatever its pressure, when its capacitance has dropped. -/
theorem c33_forced_supply_zero (fluid flow : Given K) (cap : K) (b : Bus K) (hrole : b.outD.demand = false)
    (hs : b.outD.frame < b.inD.loop + b.since) (hc : cap * (5 / 4) < b.inD.cap) :
    (frame none .supply fluid flow cap b).outD.demand = false ∧
    (frame none .supply fluid flow cap b).outD.source = 0 := by
  refine ⟨?_, ?_⟩
  · have h := c33_forced none .supply fluid flow cap b (fun h => by cases h)
    rw [← Bool.not_eq_true, h]
    intro h; cases h
  · have hin : ∀ d : Bus K, d.forced = .supply → d.outD.demand = false →
        (flipModesOnInput d).outD = d.outD ∧ (flipModesOnInput d).inD = d.inD ∧
        (flipModesOnInput d).since = d.since ∧ (flipModesOnInput d).latency = d.latency := by
      intro d h1 h2
      rw [forced_supply h1, if_neg (by rw [h2]; intro h; cases h)]
      split_ifs <;> exact ⟨rfl, rfl, rfl, rfl⟩
    have hout : ∀ c : Bus K, c.outD.demand = false → c.latency < c.since → cap * (5 / 4) < c.inD.cap →
        (processOutputs cap c).outD.source = 0 := by
      intro c h1 h2 h3
      have e : processOutputs cap c = flipModesOnCapacitance { c with outD := { c.outD with cap := cap } } := if_pos h1
      rw [e]
      unfold flipModesOnCapacitance
      rw [if_pos (show c.latency < c.since ∧ cap * ratio < c.inD.cap from ⟨h2, h3⟩)]
    have e : frame none .supply fluid flow cap b =
        processOutputs cap (withState fluid flow (flipModesOnInput (updateFrameCounts { b with forced := .supply }))) := by
      unfold frame; simp only [setState_eq]; rfl
    obtain ⟨i1, i2, i3, i4⟩ := hin (updateFrameCounts { b with forced := .supply }) rfl hrole
    rw [e]
    apply hout
    · show (flipModesOnInput _).outD.demand = false
      rw [i1]; exact hrole
    · show (flipModesOnInput _).latency < (flipModesOnInput _).since
      rw [i3, i4]
      show (b.outD.frame + 1 : Int) - b.inD.loop < b.since + 1
      omega
    · show _ < (flipModesOnInput _).inD.cap
      rw [i2]; exact hc

/-- C33 (limit): sides with equal capacitances of which none is the master supply for ever. -/
theorem c33_no_master (n t : Nat) (c : K) (es es' : List (Event K))
    (he : ∀ e ∈ es ++ es', e.Good ∧ e.role = .none ∧ e.cap = c) (h0 : ∀ e ∈ es, e.count = 0)
    (hboth : ∀ x, ∃ e ∈ es, e.who = x) (x : Bool) :
    ¬ demands ((Sys.init (fun _ => false) n t).after (es ++ es')) x := by
  have h := c33_startup (fun _ => false) n t (fun _ => c) es es' he h0 hboth x
  apply h.1
  rintro (h | ⟨h, -⟩)
  · exact lt_irrefl _ h
  · cases h

/-! ## Examples -/

/-- A usual run: the side with the smaller capacitance demands, and when its capacitance has grown the other takes over. -/
example :
    let s := (Sys.init (fun x => x) 1 0).after
      [someFrame true 0 .none 1, someFrame false 0 .none 4, someFrame true 1 .none 1, someFrame false 1 .none 4,
       someFrame true 1 .none 1, someFrame false 2 .none 4, someFrame true 1 .none 1, someFrame false 1 .none 4]
    let s' := s.after [someFrame true 1 .none 6, someFrame false 1 .none 4, someFrame true 1 .none 6]
    demands s true ∧ ¬ demands s false ∧ ¬ demands s' true ∧ demands s' false := by
  unfold demands
  decide +kernel

/-- The demand limit for example. -/
example :
    let b : Bus ℚ := { Bus.init false 1 0 with
      latency := 4
      inD := { Data.init 1 0 with
        cap := 4
        source := 100 }
      outD := { Data.init 1 0 with
        cap := 4
        demand := true } }
    (computeDemandLimit 1 110 b).gain = 243 / 512 ∧ (computeDemandLimit 1 110 b).limit = 1215 / 128 := by
  decide +kernel

/-- Two sides that take turns. -/
def turns (capT capF : ℚ) (t : Nat) : Event ℚ := someFrame (t % 2 == 0) 2 .none (if t % 2 == 0 then capT else capF)

/-- Taking turns is lively. -/
theorem lively_turns (m : Bool → Bool) (n k : Nat) {a b : ℚ} (ha : 0 ≤ a) (hb : 0 ≤ b) :
    Lively (Sys.init m n k) (turns a b) := by
  have he : ∀ t, (turns a b t).Good ∧ (turns a b t).role = .none := by
    intro t
    refine ⟨someFrame_good _ _ _ ?_, rfl⟩
    split_ifs
    · exact ha
    · exact hb
  have hi : Inv (Sys.init m n k : Sys ℚ) := inv_init m n k
  have hwho : ∀ t, (turns a b (t + 1)).who = !(turns a b t).who := by
    intro t
    show ((t + 1) % 2 == 0) = !(t % 2 == 0)
    rcases Nat.mod_two_eq_zero_or_one t with h | h
    · rw [h, show (t + 1) % 2 = 1 by omega]; rfl
    · rw [h, show (t + 1) % 2 = 0 by omega]; rfl
  have hch : ∀ t, (((Sys.init m n k).run (turns a b) t).chan (turns a b t).who).length ≤ 1 ∧
      ((Sys.init m n k).run (turns a b) t).chan (!(turns a b t).who) = [] := by
    intro t
    induction t with
    | zero => exact ⟨Nat.zero_le _, rfl⟩
    | succ t ih =>
      rw [hwho, Bool.not_not]
      have hne : (!(turns a b t).who) ≠ (turns a b t).who := by cases (turns a b t).who <;> simp
      constructor
      · show (if (!(turns a b t).who) = (turns a b t).who then _ else _ : List (Data ℚ)).length ≤ 1
        rw [if_neg hne, ih.2]
        exact le_refl _
      · show (if (turns a b t).who = (turns a b t).who then _ else _ : List (Data ℚ)) = []
        rw [if_pos rfl]
        apply List.drop_eq_nil_of_le
        show _ ≤ 2
        have := ih.1
        omega
  have hget : ∀ t x, (turns a b t).who = x → (((Sys.init m n k).run (turns a b) (t + 2)).side (!x)).inD =
      (((Sys.init m n k).run (turns a b) (t + 1)).side x).outD := by
    intro t x hx
    subst hx
    have h1 := Event.run_view_other (turns a b t) ((Sys.init m n k).run (turns a b) t)
    have h2 := Event.run_view_self (turns a b (t + 1)) ((Sys.init m n k).run (turns a b) (t + 1)) rfl
    rw [hwho] at h2
    have h3 := (hch t).2
    have h4 : ((Sys.init m n k).run (turns a b) (t + 1)).chan (!(turns a b t).who) =
        [(((Sys.init m n k).run (turns a b) (t + 1)).side (turns a b t).who).outD] := by
      unfold Sys.view at h1
      have h5 := (List.cons.inj h1).2
      rw [h3] at h5
      exact h5
    rw [h4] at h2
    unfold Sys.view at h2
    rw [h4] at h2
    exact (List.cons.inj h2).1
  have hsteps : ∀ x t, ∃ t', t ≤ t' ∧ (turns a b t').who = x := by
    intro x t
    by_cases h : (turns a b t).who = x
    · exact ⟨t, le_refl _, h⟩
    · refine ⟨t + 1, Nat.le_succ _, ?_⟩
      rw [hwho]
      revert h
      cases (turns a b t).who <;> cases x <;> simp
  refine ⟨hsteps, fun x t => ?_⟩
  obtain ⟨u, hu, hx⟩ := hsteps x t
  refine ⟨u + 2, by omega, ?_⟩
  rw [hget u x hx]
  exact frame_mono hi he x (by omega)

/-- The hypotheses of `c33_settles` are met by sides that take turns. -/
example : ∃ T, (∀ u, T ≤ u → demands ((Sys.init (fun _ => false) 1 0).run (turns 1 4) u) true) ∧
    ∀ u, T ≤ u → ¬ demands ((Sys.init (fun _ => false) 1 0).run (turns 1 4) u) false := by
  obtain ⟨T, h1, h2⟩ := c33_settles (fun _ => false) 1 0 (turns 1 4)
    (fun t => ⟨someFrame_good _ _ _ (by split_ifs <;> norm_num), rfl⟩)
    (lively_turns _ _ _ (by norm_num) (by norm_num)) true (fun x => if x then 1 else 4) 0
    (by
      intro t _
      show (if (t % 2 == 0) = true then (1 : ℚ) else 4) = if (t % 2 == 0) = true then 1 else 4
      rfl) (Or.inl (by norm_num))
  have h3 := h2 (by norm_num)
  refine ⟨T, h3, fun u hu => ?_⟩
  rcases h1 with h1 | h1
  · exact (h1 u hu).2
  · exact absurd (h3 u hu) (h1 u hu).1

end Gunns.Props
