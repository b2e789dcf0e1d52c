import Verif.Fluid.NetworkLemmas

/-!
# Flow updates of fluid networks
-/

set_option linter.unusedSectionVars false

namespace Gunns.Fluid
open Gunns.Flow Gunns.Props Finset

variable {K : Type _} [Field K] [LinearOrder K] [IsStrictOrderedRing K]

/-- Nodes that hold proper mixtures of the same fluids; the ground node's outflow has the fluids of its contents. -/
structure NodesReady (fn : FluidNet K) (s : Nat → FNode K) : Prop where
  ready : ∀ n, n < fn.nodes → Ready (s n)
  same : ∀ n m, n < fn.nodes → m < fn.nodes → SameFluids (s n).content (s m).content
  ground : SameFluids (s fn.nodes).content (s fn.nodes).outflow

/-- Conductors between nodes of the network, whose fluxes are zero or above the thresholds. -/
structure Clear (fn : FluidNet K) (s : Nat → FNode K) : Prop where
  ports : ∀ l, l < fn.links → (fn.link l).node0 ≤ fn.nodes ∧ (fn.link l).node1 ≤ fn.nodes
  flux : ∀ l, l < fn.links → (fn.link l).flux = 0 ∨ ((fn.link l).node0 ≠ (fn.link l).node1 ∧
    dblEps < |(fn.link l).flux| ∧
    ∀ n, n < fn.nodes → ∀ i, i < (s n).content.n → 2 * limit100 < |(fn.link l).flux| * (s n).content.mw i)

/-- The calls of an update, as the orchestrator makes them, none forced. -/
structure GoodLog (net : Net) (log : List Event) : Prop where
  comp : ∀ l, log.count (.compute l) = if l < net.links then 1 else 0
  tr : ∀ l, log.countP (Event.isTransport l) = if l < net.links then 1 else 0
  int : ∀ n, log.count (.integrate n) = if n < net.nodes then 1 else 0
  ord : Ordered net.Proper log
  free : ∀ l, Event.transport l true ∉ log

/-- Everything assumed of an update. -/
structure Setting (th : Thermo K) (dt : K) (fn : FluidNet K) (s s0 : Nat → FNode K) (log : List Event) : Prop where
  nodes : NodesReady fn s
  clear : Clear fn s
  reset : ∀ n, n ≤ fn.nodes → resetFlows (s n) = .ok (s0 n)
  good : GoodLog (fn.view dt (computeAll fn s0)) log
  fine : ∀ n, n < fn.nodes → Fine dt (called th dt fn n (before n log) s0) (s n)
  tiny : ∀ n, n < fn.nodes → ∀ a ∈ inflows (called th dt fn n (before n log) s0), NoTinyParts a.1 a.2

/-- What holds after the calls `a`. -/
structure At (th : Thermo K) (dt : K) (fn : FluidNet K) (s s0 : Nat → FNode K) (log a : List Event)
    (ns : Nat → FNode K) : Prop where
  run : execAll th dt fn a s0 = .ok ns
  pend : ∀ n, n ≤ fn.nodes → Event.integrate n ∉ a → ns n = (called th dt fn n a s0).foldl (Collect.run th) (s0 n)
  done : ∀ n, n < fn.nodes → Event.integrate n ∈ a → ∃ r q,
    integrateFlows th dt ((called th dt fn n (before n log) s0).foldl (Collect.run th) (s0 n)) = .ok r ∧
    Stepped dt (called th dt fn n (before n log) s0) (s n) (s0 n) r ∧
    ns n = { r with outflux := q }
  added : ∀ n, n < fn.nodes → Event.integrate n ∉ a → ∀ x ∈ inflows (called th dt fn n a s0),
    SameFluids (s n).content x.1 ∧ Mixed x.1 ∧ FlowShared x.1 ∧ dblEps ≤ x.2

variable {th : Thermo K} {dt : K} {fn : FluidNet K} {s s0 : Nat → FNode K} {log : List Event}

theorem weight_bound {p : Poly K} (hp : Mixed p) {f : K} (hf : 0 ≤ f) (h : ∀ i, i < p.n → 2 * limit100 < f * p.mw i) :
    (limit100 : K) < f * p.mweight := by
  have hl := limit100_pos (K := K)
  have hsum : ∑ i ∈ range p.n, (p.parts i).moleFraction * p.mw i = (∑ i ∈ range p.n, (p.parts i).massFraction) * p.mweight := by
    rw [Finset.sum_mul]
    exact Finset.sum_congr rfl (fun i hi => hp.weight.2 i (mem_range.1 hi))
  have h1 : 2 * limit100 * ∑ i ∈ range p.n, (p.parts i).moleFraction ≤ f * ∑ i ∈ range p.n, (p.parts i).moleFraction * p.mw i := by
    rw [Finset.mul_sum, Finset.mul_sum]
    refine Finset.sum_le_sum (fun i hi => ?_)
    have := (hp.nonneg i (mem_range.1 hi)).2
    have := h i (mem_range.1 hi)
    nlinarith
  rw [hsum] at h1
  have hm := abs_le.1 hp.massSum
  have hn := abs_le.1 hp.moleSum
  have hfe : (fltEps : K) < 1 / 3 := by unfold fltEps; norm_num
  have hw := hp.weight.1
  have h2 : f * p.mweight * ∑ i ∈ range p.n, (p.parts i).massFraction ≤ f * p.mweight * (4 / 3) :=
    mul_le_mul_of_nonneg_left (by linarith) (mul_nonneg hf hw.le)
  have h3 : 2 * limit100 * (2 / 3) < 2 * limit100 * ∑ i ∈ range p.n, (p.parts i).moleFraction :=
    mul_lt_mul_of_pos_left (by linarith) (by linarith)
  nlinarith

namespace Setting

theorem s0_state (h : Setting th dt fn s s0 log) {n : Nat} (hn : n < fn.nodes) :
    SameState (s n).content (s0 n).outflow ∧ (s0 n).content = (s n).content ∧ (s0 n).scheduled = 0 := by
  obtain ⟨o, h1, h2, -, -⟩ := setState_spec (h.nodes.ready n hn).outflow
  have := h.reset n hn.le
  unfold resetFlows at this
  rw [h1] at this
  injection this with this
  rw [← this]
  exact ⟨h2, rfl, rfl⟩

theorem s0_scheduled (h : Setting th dt fn s s0 log) {n : Nat} (hn : n ≤ fn.nodes) :
    (s0 n).scheduled = 0 ∧ (s0 n).content = (s n).content := by
  have := h.reset n hn
  unfold resetFlows at this
  cases hx : setState (s n).content (s n).outflow with
  | ok o => rw [hx] at this; injection this with this; rw [← this]; exact ⟨rfl, rfl⟩
  | thrown o => rw [hx] at this; cases this

theorem pos (h : Setting th dt fn s s0 log) {l : Nat} (hl : l < fn.links) (hf : (fn.link l).flux ≠ 0) :
    (fn.link l).src ≤ fn.nodes ∧ (fn.link l).dst ≤ fn.nodes ∧ (fn.link l).src ≠ (fn.link l).dst ∧
    (fn.link l).from fn.nodes < fn.nodes := by
  obtain ⟨p0, p1⟩ := h.clear.ports l hl
  have hne : (fn.link l).node0 ≠ (fn.link l).node1 := by
    rcases h.clear.flux l hl with x | x
    · exact absurd x hf
    · exact x.1
  have h1 : (fn.link l).src ≤ fn.nodes := by unfold FLink.src; split_ifs <;> assumption
  have h2 : (fn.link l).dst ≤ fn.nodes := by unfold FLink.dst; split_ifs <;> assumption
  have h3 : (fn.link l).src ≠ (fn.link l).dst := by
    unfold FLink.src FLink.dst
    split_ifs
    · exact hne
    · exact hne.symm
  refine ⟨h1, h2, h3, ?_⟩
  unfold FLink.from
  split_ifs with hg
  · rw [hg] at h3; omega
  · omega

theorem threshold (h : Setting th dt fn s s0 log) {l : Nat} (hl : l < fn.links) :
    (fn.link l).flux = 0 ∨ dblEps < |(fn.link l).flux| := (h.clear.flux l hl).imp_right (fun x => x.2.1)

theorem draws (h : Setting th dt fn s s0 log) {l : Nat} (hl : l < fn.links) (hf : (fn.link l).flux ≠ 0) (ms : Nat → FNode K) :
    (fn.view dt ms).Draws l (fn.link l).src ∧ (fn.view dt ms).Feeds l (fn.link l).dst := by
  have ht : dblEps < |(fn.link l).flux| := by
    rcases h.threshold hl with x | x
    · exact absurd x hf
    · exact x
  rcases lt_or_gt_of_ne hf with h0 | h0
  · rw [abs_of_neg h0] at ht
    have he := dblEps_pos (K := K)
    constructor
    · refine ⟨1, by show 1 < 2; omega, ?_, Or.inl ?_⟩
      · show (if (1 : Nat) = 0 then (fn.link l).node0 else (fn.link l).node1) = _
        unfold FLink.src; rw [if_neg (by omega), if_neg (not_lt.2 h0.le)]
      · show (fn.link l).dir 1 = _
        unfold FLink.dir
        rw [if_neg (by linarith), if_pos (by linarith), if_neg (by omega)]
    · refine ⟨0, by show 0 < 2; omega, ?_, Or.inl ?_⟩
      · show (if (0 : Nat) = 0 then (fn.link l).node0 else (fn.link l).node1) = _
        unfold FLink.dst; rw [if_pos rfl, if_neg (not_lt.2 h0.le)]
      · show (fn.link l).dir 0 = _
        unfold FLink.dir
        rw [if_neg (by linarith), if_pos (by linarith), if_pos rfl]
  · rw [abs_of_pos h0] at ht
    constructor
    · refine ⟨0, by show 0 < 2; omega, ?_, Or.inl ?_⟩
      · show (if (0 : Nat) = 0 then (fn.link l).node0 else (fn.link l).node1) = _
        unfold FLink.src; rw [if_pos rfl, if_pos h0]
      · show (fn.link l).dir 0 = _
        unfold FLink.dir
        rw [if_pos ht, if_pos rfl]
    · refine ⟨1, by show 1 < 2; omega, ?_, Or.inl ?_⟩
      · show (if (1 : Nat) = 0 then (fn.link l).node0 else (fn.link l).node1) = _
        unfold FLink.dst; rw [if_neg (by omega), if_pos h0]
      · show (fn.link l).dir 1 = _
        unfold FLink.dir
        rw [if_pos ht, if_neg (by omega)]

/-- No node is fed after its integration. -/
theorem not_fed (h : Setting th dt fn s s0 log) {a b : List Event} {l n : Nat} {e : Bool}
    (hlog : log = a ++ Event.transport l e :: b) (hi : Event.integrate n ∈ a)
    (hf : (fn.link l).flux ≠ 0) : n ≠ (fn.link l).dst := by
  intro hn
  have hl : l < fn.links := (h.good.ord a _ b hlog).1
  obtain ⟨a1, a2, ha⟩ := List.append_of_mem hi
  obtain ⟨-, hp⟩ := h.good.ord a1 (.integrate n) (a2 ++ Event.transport l e :: b) (by rw [hlog, ha]; simp)
  obtain ⟨x, hx, ht⟩ := hp l hl (hn ▸ (h.draws hl hf _).2)
  have hc := h.good.tr l
  rw [hlog, List.countP_append, List.countP_cons, ha, List.countP_append] at hc
  have h1 : 0 < a1.countP (Event.isTransport l) := List.countP_pos_iff.2 ⟨x, hx, ht⟩
  have h2 : Event.isTransport l (.transport l e) = true := by cases e <;> simp [Event.isTransport]
  rw [h2] at hc
  simp only [if_true] at hc
  split_ifs at hc; all_goals omega

/-- Nothing is computed after an integration. -/
theorem not_computed (h : Setting th dt fn s s0 log) {a b : List Event} {l n : Nat}
    (hlog : log = a ++ Event.compute l :: b) : Event.integrate n ∉ a := by
  intro hi
  obtain ⟨-, hp⟩ := h.good.ord a _ b hlog
  obtain ⟨k, hk⟩ := hp _ hi
  cases hk

end Setting

theorem At.outflow {a : List Event} {ns : Nat → FNode K} (h : Setting th dt fn s s0 log)
    (ha : At th dt fn s s0 log a ns) {n : Nat} (hn : n < fn.nodes) :
    Mixed (ns n).outflow ∧ FlowShared (ns n).outflow ∧ SameFluids (s n).content (ns n).outflow := by
  by_cases hi : Event.integrate n ∈ a
  · obtain ⟨r, q, -, h2, h3⟩ := ha.done n hn hi
    rw [h3]
    exact h2.mixed
  · rw [ha.pend n hn.le hi, (collect_frame th _ (s0 n)).2.1]
    obtain ⟨h1, -, -⟩ := h.s0_state hn
    exact ⟨h1.mixed (h.nodes.ready n hn).mixed, h1.flow (h.nodes.ready n hn).flow, h1.fluids⟩

/-- The flow rate a conductor transports. -/
theorem At.rate {a : List Event} {ns : Nat → FNode K} (h : Setting th dt fn s s0 log)
    (ha : At th dt fn s s0 log a ns) {l : Nat} (hl : l < fn.links) (hf : (fn.link l).flux ≠ 0) :
    0 < (ns ((fn.link l).from fn.nodes)).outflow.mweight ∧
    limit100 < |(fn.link l).flux| * (ns ((fn.link l).from fn.nodes)).outflow.mweight := by
  obtain ⟨-, -, -, hn⟩ := h.pos hl hf
  obtain ⟨h1, -, h3⟩ := ha.outflow h hn
  refine ⟨h1.weight.1, weight_bound h1 (abs_nonneg _) ?_⟩
  intro i hi
  rw [← h3.1] at hi
  rw [← (h3.2 i hi).2]
  rcases h.clear.flux l hl with x | x
  · exact absurd x hf
  · exact x.2.2 _ hn i hi

theorem At.start : At th dt fn s s0 log [] s0 :=
  ⟨rfl, fun _ _ _ => rfl, fun _ _ c => (by cases c), fun _ _ _ _ c => (by cases c)⟩

theorem At.next {a b : List Event} {e : Event} {ns : Nat → FNode K} (h : Setting th dt fn s s0 log)
    (hlog : log = a ++ e :: b) (ha : At th dt fn s s0 log a ns) :
    ∃ ns', exec th dt fn ns e = .ok ns' ∧ At th dt fn s s0 log (a ++ [e]) ns' := by
  have hrun : ∀ ns', exec th dt fn ns e = .ok ns' → execAll th dt fn (a ++ [e]) s0 = .ok ns' := by
    intro ns' hx
    rw [execAll_append th dt fn ha.run]
    show (match exec th dt fn ns e with
      | .ok ns => execAll th dt fn [] ns
      | .thrown ns => .thrown ns) = _
    rw [hx]; rfl
  cases e with
  | compute l =>
    refine ⟨_, rfl, hrun _ rfl, ?_, ?_, ?_⟩
    · intro n hn hi
      rw [called_snoc th dt fn n ha.run, List.foldl_append, ← ha.pend n hn (fun c => hi (List.mem_append_left _ c))]
      exact compute_calls th (fn.link l) ns n
    · intro n hn hi
      exfalso
      rcases List.mem_append.1 hi with c | c
      · exact h.not_computed hlog c
      · simp at c
    · intro n hn hi x hx
      rw [called_snoc th dt fn n ha.run, inflows_append, List.mem_append] at hx
      rcases hx with hx | hx
      · exact ha.added n hn (fun c => hi (List.mem_append_left _ c)) x hx
      · exfalso
        change x ∈ inflows (computeCalls (fn.link l) n) at hx
        rw [computeCalls_eq (h.threshold (h.good.ord a _ b hlog).1)] at hx
        split_ifs at hx <;> simp [inflows] at hx
  | transport l early =>
    have hl : l < fn.links := (h.good.ord a _ b hlog).1
    have hcalls : ∀ n, transportFlows th fn.nodes (fn.link l) ns n =
        (callsOf fn ns n (.transport l early)).foldl (Collect.run th) (ns n) := fun n => transport_calls th _ _ ns n
    refine ⟨_, rfl, hrun _ rfl, ?_, ?_, ?_⟩
    · intro n hn hi
      rw [called_snoc th dt fn n ha.run, List.foldl_append, ← ha.pend n hn (fun c => hi (List.mem_append_left _ c))]
      exact hcalls n
    · intro n hn hi
      have hi' : Event.integrate n ∈ a := by
        rcases List.mem_append.1 hi with c | c
        · exact c
        · simp at c
      obtain ⟨r, q, h1, h2, h3⟩ := ha.done n hn hi'
      rw [hcalls n]
      change ∃ r' q', _ ∧ _ ∧ (transportCalls fn.nodes (fn.link l) ns n).foldl (Collect.run th) (ns n) = _
      by_cases hf : (fn.link l).flux = 0
      · rw [transportCalls_zero hf]
        exact ⟨r, q, h1, h2, h3⟩
      · obtain ⟨w, hw⟩ := ha.rate h hl hf
        rw [transportCalls_eq hf w hw, if_neg (h.not_fed hlog hi' hf), List.append_nil]
        split_ifs with hs
        · rw [h3]
          exact ⟨r, _, h1, h2, rfl⟩
        · exact ⟨r, q, h1, h2, h3⟩
    · intro n hn hi x hx
      rw [called_snoc th dt fn n ha.run, inflows_append, List.mem_append] at hx
      rcases hx with hx | hx
      · exact ha.added n hn (fun c => hi (List.mem_append_left _ c)) x hx
      · change x ∈ inflows (transportCalls fn.nodes (fn.link l) ns n) at hx
        by_cases hf : (fn.link l).flux = 0
        · rw [transportCalls_zero hf] at hx; simp [inflows] at hx
        · obtain ⟨w, hw⟩ := ha.rate h hl hf
          obtain ⟨-, -, -, hfr⟩ := h.pos hl hf
          obtain ⟨o1, o2, o3⟩ := ha.outflow h hfr
          rw [transportCalls_eq hf w hw, inflows_append, List.mem_append] at hx
          have hx' : x = ((ns ((fn.link l).from fn.nodes)).outflow,
              |(fn.link l).flux| * (ns ((fn.link l).from fn.nodes)).outflow.mweight) := by
            rcases hx with hx | hx
            · split_ifs at hx <;> simp [inflows] at hx
            · split_ifs at hx
              · simpa [inflows] using hx
              · simp [inflows] at hx
          subst hx'
          refine ⟨(h.nodes.same n _ hn hfr).trans o3, o1, o2, ?_⟩
          refine le_trans ?_ hw.le
          unfold limit100
          have := dblEps_pos (K := K)
          linarith
  | integrate n =>
    have hc := h.good.int n
    have hn : n < fn.nodes := (h.good.ord a _ b hlog).1
    have hni : Event.integrate n ∉ a := by
      intro hi
      have : 0 < a.count (Event.integrate n) := List.count_pos_iff.2 hi
      rw [hlog, List.count_append, List.count_cons_self] at hc
      split_ifs at hc; all_goals omega
    have hb : before n log = a := by rw [hlog]; exact before_eq hni
    have hadd : ∀ x ∈ inflows (called th dt fn n a s0), Addable (s n).content x := by
      intro x hx
      obtain ⟨x1, x2, x3, x4⟩ := ha.added n hn hni x hx
      exact ⟨x1, x2, x3, x4, h.tiny n hn x (by rw [hb]; exact hx)⟩
    have hfine := h.fine n hn
    rw [hb] at hfine
    obtain ⟨q, r, g1, g2, g3⟩ := node_any (th := th) (h.nodes.ready n hn) hadd hfine
    have : q = s0 n := by rw [h.reset n hn.le] at g1; injection g1 with g1; exact g1.symm
    subst this
    have hex : exec th dt fn ns (.integrate n) = .ok (upd ns n (fun _ => r)) := by
      show (match integrateFlows th dt (ns n) with
        | .ok r => Res.ok (upd ns n (fun _ => r))
        | .thrown r => .thrown (upd ns n (fun _ => r))) = _
      rw [ha.pend n hn.le hni, g2]
    have hcalled : ∀ m, called th dt fn m (a ++ [.integrate n]) s0 = called th dt fn m a s0 := by
      intro m
      rw [called_snoc th dt fn m ha.run]
      exact List.append_nil _
    refine ⟨_, hex, hrun _ hex, ?_, ?_, ?_⟩
    · intro m hm hi
      have hmn : m ≠ n := fun c => hi (by rw [c]; simp)
      rw [upd_other _ _ hmn, hcalled]
      exact ha.pend m hm (fun c => hi (List.mem_append_left _ c))
    · intro m hm hi
      by_cases hmn : m = n
      · subst hmn
        rw [upd_same, hb]
        exact ⟨r, r.outflux, g2, g3, rfl⟩
      · rw [upd_other _ _ hmn]
        refine ha.done m hm ?_
        rcases List.mem_append.1 hi with c | c
        · exact c
        · simp only [List.mem_singleton, Event.integrate.injEq] at c; exact absurd c hmn
    · intro m hm hi
      rw [hcalled]
      exact ha.added m hm (fun c => hi (List.mem_append_left _ c))

theorem At.all (h : Setting th dt fn s s0 log) : ∀ a b, log = a ++ b → ∃ ns, At th dt fn s s0 log a ns := by
  intro a
  induction a using List.reverseRecOn with
  | nil => intro b _; exact ⟨s0, At.start⟩
  | append_singleton a e ih =>
    intro b hb
    have hb' : log = a ++ e :: b := by rw [hb]; simp
    obtain ⟨ns, hns⟩ := ih _ hb'
    obtain ⟨ns', -, h'⟩ := hns.next h hb'
    exact ⟨ns', h'⟩

end Gunns.Fluid
