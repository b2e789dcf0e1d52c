import Verif.Fluid.NetworkRun

/-!
# What links carry in an update
-/

set_option linter.unusedSectionVars false

namespace Gunns.Fluid
open Gunns.Flow Gunns.Props Finset

variable {K : Type _} [Field K] [LinearOrder K] [IsStrictOrderedRing K]
variable {th : Thermo K} {dt : K} {fn : FluidNet K} {s s0 : Nat → FNode K} {log : List Event}

/-- Mass of constituent `i` per second and unit of flux that link `l` carries, by the nodes `s` before and `r` after
the update. -/
def carried (fn : FluidNet K) (s r : Nat → FNode K) (l i : Nat) : K :=
  if (fn.link l).src = fn.nodes then partFlow (s (fn.link l).dst).content i else partFlow (r (fn.link l).src).outflow i

theorem outs_transportCalls (ground : Nat) (c : FLink K) (ns : Nat → FNode K) (n : Nat) :
    outs (transportCalls ground c ns n) = [] := by
  unfold transportCalls
  dsimp only
  split_ifs <;> rfl

theorem outs_called (h : Setting th dt fn s s0 log) (n : Nat) : ∀ a b, log = a ++ b →
    (outs (called th dt fn n a s0)).sum = ((computed a).map (fun l =>
      if (fn.link l).flux ≠ 0 ∧ n = (fn.link l).src then |(fn.link l).flux| else 0)).sum := by
  intro a
  induction a using List.reverseRecOn with
  | nil => intro b _; rfl
  | append_singleton a e ih =>
    intro b hb
    have hb' : log = a ++ e :: b := by rw [hb]; simp
    obtain ⟨ns, hns⟩ := At.all h a _ hb'
    rw [called_snoc th dt fn n hns.run, outs_append, List.sum_append, ih _ hb', computed_append, List.map_append,
      List.sum_append]
    congr 1
    cases e with
    | compute l =>
      show (outs (computeCalls (fn.link l) n)).sum = _
      rw [computeCalls_eq (h.threshold (h.good.ord a _ b hb').1)]
      show _ = (List.map _ [l]).sum
      rw [List.map_singleton, List.sum_singleton]
      split_ifs with hc
      · simp [outs]
      · rfl
    | transport l early =>
      show (outs (transportCalls fn.nodes (fn.link l) ns n)).sum = _
      rw [outs_transportCalls]; rfl
    | integrate m => rfl

/-- Where the integration of a node is. -/
theorem Setting.split (h : Setting th dt fn s s0 log) {n : Nat} (hn : n < fn.nodes) :
    ∃ b, log = before n log ++ Event.integrate n :: b := by
  have hc : log.count (.integrate n) = 1 := (h.good.int n).trans (if_pos hn)
  have hm : Event.integrate n ∈ log := List.count_pos_iff.1 (by omega)
  obtain ⟨a, b, hab⟩ := List.append_of_mem hm
  have hni : Event.integrate n ∉ a := by
    intro hi
    have : 0 < a.count (Event.integrate n) := List.count_pos_iff.2 hi
    rw [hab, List.count_append, List.count_cons_self] at hc
    omega
  refine ⟨b, ?_⟩
  have : before n log = a := by rw [hab]; exact before_eq hni
  rw [this]; exact hab

theorem Setting.computed_count (h : Setting th dt fn s s0 log) (l : Nat) :
    (computed log).count l = if l < fn.links then 1 else 0 := by rw [count_computed]; exact h.good.comp l

theorem Setting.transported_count (h : Setting th dt fn s s0 log) (l : Nat) :
    (transported log).count l = if l < fn.links then 1 else 0 := by rw [count_transported]; exact h.good.tr l

/-- The outflow asked for of a node, by links. -/
theorem outs_total (h : Setting th dt fn s s0 log) {n : Nat} (hn : n < fn.nodes) :
    (outs (called th dt fn n (before n log) s0)).sum = ∑ l ∈ range fn.links,
      if (fn.link l).flux ≠ 0 ∧ n = (fn.link l).src then |(fn.link l).flux| else 0 := by
  obtain ⟨b, hb⟩ := h.split hn
  rw [outs_called h n _ _ hb, ← sum_of_count h.computed_count]
  have : computed log = computed (before n log) := by
    conv_lhs => rw [hb]
    rw [computed_append]
    have hnil : computed (Event.integrate n :: b) = [] := by
      rw [List.eq_nil_iff_forall_not_mem]
      intro l hl
      rw [mem_computed] at hl
      have hl' : Event.compute l ∈ b := by
        rcases List.mem_cons.1 hl with c | c
        · cases c
        · exact c
      obtain ⟨b1, b2, hbb⟩ := List.append_of_mem hl'
      refine h.not_computed (a := before n log ++ Event.integrate n :: b1) (b := b2) (l := l) (n := n) ?_ (by simp)
      rw [hb, hbb] 
      simp [← hbb, ← hb]
    rw [hnil, List.append_nil]
  rw [this]

/-- The outflow scheduled when the orchestrator looks for overflowing nodes. -/
theorem scheduled_total (h : Setting th dt fn s s0 log) {n : Nat} (hn : n ≤ fn.nodes) :
    (computeAll fn s0 n).content = (s n).content ∧
    (computeAll fn s0 n).scheduled = ∑ l ∈ range fn.links,
      if (fn.link l).flux ≠ 0 ∧ n = (fn.link l).src then |(fn.link l).flux| else 0 := by
  obtain ⟨h0, h1⟩ := h.s0_scheduled hn
  have := loop_inv (f := fun l ns => computeFlows (fn.link l) ns) (s := s0)
    (fun k ns => (ns n).content = (s n).content ∧ (ns n).scheduled = ∑ l ∈ range k,
      if (fn.link l).flux ≠ 0 ∧ n = (fn.link l).src then |(fn.link l).flux| else 0) fn.links
    ⟨h1, by rw [h0]; rfl⟩
    (by
      rintro k hk ns ⟨g1, g2⟩
      rw [Finset.sum_range_succ, ← g2, compute_calls th, computeCalls_eq (h.threshold hk)]
      split_ifs with hc
      · exact ⟨g1, rfl⟩
      · exact ⟨g1, (add_zero _).symm⟩)
  exact this

/-- What a link carries when it transports. -/
theorem At.carried {a b : List Event} {ns r : Nat → FNode K} (h : Setting th dt fn s s0 log) {l : Nat} {early : Bool}
    (hlog : log = a ++ Event.transport l early :: b) (ha : At th dt fn s s0 log a ns)
    (hr : At th dt fn s s0 log log r) (hf : (fn.link l).flux ≠ 0) {i : Nat}
    (hi : ∀ n, n < fn.nodes → i < (s n).content.n) :
    partFlow (ns ((fn.link l).from fn.nodes)).outflow i = carried fn s r l i := by
  obtain ⟨hl, -, hpr⟩ := h.good.ord a _ b hlog
  obtain ⟨p1, p2, p3, p4⟩ := h.pos hl hf
  unfold Fluid.carried FLink.from at *
  split_ifs at p4 ⊢ with hg
  · have hni : Event.integrate (fn.link l).dst ∉ a := fun c => h.not_fed hlog c hf rfl
    rw [ha.pend _ p2 hni]
    unfold partFlow
    rw [(collect_frame th _ _).2.1]
    obtain ⟨g1, -, -⟩ := h.s0_state p4
    rw [g1.mweight, (g1.parts i (hi _ p4)).1]
  · have hin : Event.integrate (fn.link l).src ∈ log := by
      have := h.good.int (fn.link l).src
      rw [if_pos (show (fn.link l).src < (fn.view dt (computeAll fn s0)).nodes from p4)] at this
      exact List.count_pos_iff.1 (by omega)
    obtain ⟨x, q, x1, x2, x3⟩ := hr.done _ p4 hin
    rw [x3]
    by_cases hia : Event.integrate (fn.link l).src ∈ a
    · obtain ⟨y, q', y1, y2, y3⟩ := ha.done _ p4 hia
      rw [x1] at y1
      injection y1 with y1
      rw [y3, ← y1]
    · rw [ha.pend _ p1 hia]
      unfold partFlow
      rw [(collect_frame th _ _).2.1]
      have he : early = false := by
        cases early with
        | false => rfl
        | true => exact absurd (by rw [hlog]; simp) (h.good.free l)
      have hno : ¬ (fn.view dt (computeAll fn s0)).Overflows (fn.link l).src := fun c =>
        hia (hpr he _ (h.draws hl hf _).1 c)
      obtain ⟨c1, c2⟩ := scheduled_total h p1
      have hle : (outs (called th dt fn (fn.link l).src (before (fn.link l).src log) s0)).sum * dt ≤
          (s (fn.link l).src).content.mole := by
        rw [outs_total h p4, ← c2, ← c1]
        by_contra hlt
        exact hno ⟨p4, decide_eq_true (not_le.1 hlt)⟩
      have hpos : 0 < (outs (called th dt fn (fn.link l).src (before (fn.link l).src log) s0)).sum := by
        rw [outs_total h p4]
        refine Finset.sum_pos' (fun k _ => ?_) ⟨l, mem_range.2 hl, ?_⟩
        · split_ifs
          · exact abs_nonneg _
          · exact le_refl _
        · rw [if_pos ⟨hf, rfl⟩]
          exact abs_pos.2 hf
      obtain ⟨f1, f2⟩ := x2.first hpos hle
      rw [f1, f2 i (hi _ p4)]

/-- What flows into a node, by links. -/
theorem ins_called (h : Setting th dt fn s s0 log) {r : Nat → FNode K} (hr : At th dt fn s s0 log log r) {i : Nat}
    (hi : ∀ n, n < fn.nodes → i < (s n).content.n) (n : Nat) : ∀ a b, log = a ++ b →
    ((inflows (called th dt fn n a s0)).map (fun x => x.2 * (x.1.parts i).massFraction)).sum =
      ((transported a).map (fun l =>
        if (fn.link l).flux ≠ 0 ∧ n = (fn.link l).dst then |(fn.link l).flux| * carried fn s r l i else 0)).sum := by
  intro a
  induction a using List.reverseRecOn with
  | nil => intro b _; rfl
  | append_singleton a e ih =>
    intro b hb
    have hb' : log = a ++ e :: b := by rw [hb]; simp
    obtain ⟨ns, hns⟩ := At.all h a _ hb'
    rw [called_snoc th dt fn n hns.run, inflows_append, List.map_append, List.sum_append, ih _ hb', transported_append,
      List.map_append, List.sum_append]
    congr 1
    cases e with
    | compute l =>
      show ((inflows (computeCalls (fn.link l) n)).map _).sum = _
      have hnil : inflows (computeCalls (fn.link l) n) = [] := by
        unfold computeCalls
        split_ifs <;> rfl
      rw [hnil]; rfl
    | transport l early =>
      show ((inflows (transportCalls fn.nodes (fn.link l) ns n)).map _).sum = (List.map _ [l]).sum
      rw [List.map_singleton, List.sum_singleton]
      by_cases hf : (fn.link l).flux = 0
      · rw [transportCalls_zero hf, if_neg (fun c => c.1 hf)]; rfl
      · have hl : l < fn.links := (h.good.ord a _ b hb').1
        obtain ⟨w, hw⟩ := hns.rate h hl hf
        rw [transportCalls_eq hf w hw, inflows_append]
        have hnil : inflows (if n = (fn.link l).src then [Collect.outflux (|(fn.link l).flux| *
            (ns ((fn.link l).from fn.nodes)).outflow.mweight)] else []) = [] := by split_ifs <;> rfl
        rw [hnil, List.nil_append, ← hns.carried h hb' hr hf hi]
        by_cases hd : n = (fn.link l).dst
        · rw [if_pos hd, if_pos ⟨hf, hd⟩]
          show (List.map _ [((ns ((fn.link l).from fn.nodes)).outflow, |(fn.link l).flux| *
            (ns ((fn.link l).from fn.nodes)).outflow.mweight)]).sum = _
          rw [List.map_singleton, List.sum_singleton]
          unfold partFlow
          dsimp only
          ring
        · rw [if_neg hd, if_neg (fun c => hd c.2)]; rfl
    | integrate m => rfl

theorem ins_total (h : Setting th dt fn s s0 log) {r : Nat → FNode K} (hr : At th dt fn s s0 log log r) {i : Nat}
    (hi : ∀ n, n < fn.nodes → i < (s n).content.n) {n : Nat} (hn : n < fn.nodes) :
    ((inflows (called th dt fn n (before n log) s0)).map (fun x => x.2 * (x.1.parts i).massFraction)).sum =
      ∑ l ∈ range fn.links,
        if (fn.link l).flux ≠ 0 ∧ n = (fn.link l).dst then |(fn.link l).flux| * carried fn s r l i else 0 := by
  obtain ⟨b, hb⟩ := h.split hn
  rw [ins_called h hr hi n _ _ hb, ← sum_of_count h.transported_count]
  have : transported log = transported (before n log) ++ transported (Event.integrate n :: b) := by
    conv_lhs => rw [hb]
    rw [transported_append]
  rw [this, List.map_append, List.sum_append]
  rw [sum_zero_of (ls := transported (Event.integrate n :: b)), add_zero]
  intro l hl
  rw [if_neg]
  rintro ⟨hf, hd⟩
  obtain ⟨e, he⟩ := mem_transported.1 hl
  have he' : Event.transport l e ∈ b := by
    rcases List.mem_cons.1 he with c | c
    · cases c
    · exact c
  obtain ⟨b1, b2, hbb⟩ := List.append_of_mem he'
  refine h.not_fed (a := before n log ++ Event.integrate n :: b1) (b := b2) (l := l) (n := n) (e := e) ?_ (by simp) hf hd
  conv_lhs => rw [hb, hbb]
  simp

/-- The balance of a node. -/
theorem node_balance (h : Setting th dt fn s s0 log) {r : Nat → FNode K} (hr : At th dt fn s s0 log log r) {i : Nat}
    (hi : ∀ n, n < fn.nodes → i < (s n).content.n) {n : Nat} (hn : n < fn.nodes) :
    held (r n) i = held (s n) i + dt * ∑ l ∈ range fn.links,
      ((if (fn.link l).flux ≠ 0 ∧ n = (fn.link l).dst then |(fn.link l).flux| * carried fn s r l i else 0) -
       (if (fn.link l).flux ≠ 0 ∧ n = (fn.link l).src then |(fn.link l).flux| * carried fn s r l i else 0)) := by
  have hin : Event.integrate n ∈ log := by
    have := h.good.int n
    rw [if_pos (show n < (fn.view dt (computeAll fn s0)).nodes from hn)] at this
    exact List.count_pos_iff.1 (by omega)
  obtain ⟨x, q, -, x2, x3⟩ := hr.done n hn hin
  have hb := x2.balance i (hi n hn)
  have hx : held (r n) i = held x i := by rw [x3]; rfl
  have hxo : (r n).outflow = x.outflow := by rw [x3]
  rw [hx, hb]
  unfold Flows.inPart Flows.outMoles flowsOf
  dsimp only
  rw [ins_total h hr hi hn, outs_total h hn, Finset.sum_sub_distrib, ← hxo, mul_sub, add_sub_assoc]
  congr 1
  congr 1
  · ring
  · rw [Finset.sum_mul, Finset.sum_mul, Finset.sum_mul, Finset.mul_sum]
    refine Finset.sum_congr rfl (fun l hl => ?_)
    by_cases hc : (fn.link l).flux ≠ 0 ∧ n = (fn.link l).src
    · rw [if_pos hc, if_pos hc]
      unfold Fluid.carried partFlow
      rw [if_neg (by rw [← hc.2]; omega), ← hc.2]
      ring
    · rw [if_neg hc, if_neg hc]; ring

/-- The balance of the network. -/
theorem network_balance (h : Setting th dt fn s s0 log) {r : Nat → FNode K} (hr : At th dt fn s s0 log log r) {i : Nat}
    (hi : ∀ n, n < fn.nodes → i < (s n).content.n) :
    ∑ n ∈ range fn.nodes, held (r n) i = ∑ n ∈ range fn.nodes, held (s n) i + dt * ∑ l ∈ range fn.links,
      ((if (fn.link l).src = fn.nodes ∧ (fn.link l).flux ≠ 0 then |(fn.link l).flux| * carried fn s r l i else 0) -
       (if (fn.link l).dst = fn.nodes ∧ (fn.link l).flux ≠ 0 then |(fn.link l).flux| * carried fn s r l i else 0)) := by
  rw [Finset.sum_congr rfl (fun n hn => node_balance h hr hi (mem_range.1 hn)), Finset.sum_add_distrib, ← Finset.mul_sum, Finset.sum_comm]
  congr 1
  congr 1
  refine Finset.sum_congr rfl (fun l hl => ?_)
  have hl := mem_range.1 hl
  rw [Finset.sum_sub_distrib]
  by_cases hf : (fn.link l).flux = 0
  · rw [if_neg (fun c => c.2 hf), if_neg (fun c => c.2 hf), Finset.sum_eq_zero (fun n _ => if_neg (fun c => c.1 hf)),
      Finset.sum_eq_zero (fun n _ => if_neg (fun c => c.1 hf))]
  · obtain ⟨p1, p2, p3, -⟩ := h.pos hl hf
    have hsum : ∀ (m : Nat) (x : K), (∑ n ∈ range fn.nodes, if (fn.link l).flux ≠ 0 ∧ n = m then x else 0) =
        if m < fn.nodes then x else 0 := by
      intro m x
      have : ∀ n ∈ range fn.nodes, (if (fn.link l).flux ≠ 0 ∧ n = m then x else 0) = if n = m then x else 0 := by
        intro n _
        by_cases hc : n = m
        · rw [if_pos ⟨hf, hc⟩, if_pos hc]
        · rw [if_neg (fun c => hc c.2), if_neg hc]
      rw [Finset.sum_congr rfl this, Finset.sum_ite_eq' (range fn.nodes) m (fun _ => x)]
      simp only [mem_range]
    rw [hsum, hsum]
    generalize carried fn s r l i = x
    by_cases hs : (fn.link l).src = fn.nodes
    · have hd : (fn.link l).dst ≠ fn.nodes := fun c => p3 (hs.trans c.symm)
      have hd' : (fn.link l).dst < fn.nodes := by omega
      have hs' : ¬ (fn.link l).src < fn.nodes := by omega
      have x1 : (fn.link l).src = fn.nodes ∧ (fn.link l).flux ≠ 0 := ⟨hs, hf⟩
      have x2 : ¬ ((fn.link l).dst = fn.nodes ∧ (fn.link l).flux ≠ 0) := fun c => hd c.1
      rw [if_pos hd', if_neg hs', if_pos x1, if_neg x2]
    · have hs' : (fn.link l).src < fn.nodes := by omega
      have x1 : ¬ ((fn.link l).src = fn.nodes ∧ (fn.link l).flux ≠ 0) := fun c => hs c.1
      rw [if_pos hs', if_neg x1]
      by_cases hd : (fn.link l).dst = fn.nodes
      · have hd' : ¬ (fn.link l).dst < fn.nodes := by omega
        have x2 : (fn.link l).dst = fn.nodes ∧ (fn.link l).flux ≠ 0 := ⟨hd, hf⟩
        rw [if_neg hd', if_pos x2]
      · have hd' : (fn.link l).dst < fn.nodes := by omega
        have x2 : ¬ ((fn.link l).dst = fn.nodes ∧ (fn.link l).flux ≠ 0) := fun c => hd c.1
        rw [if_pos hd', if_neg x2, sub_self, sub_self]

end Gunns.Fluid
