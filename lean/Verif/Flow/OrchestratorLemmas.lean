import Verif.Flow.OrchestratorSpec
import Mathlib.Tactic.Common

/-!
# Lemmas for the fluid flow orchestrator
-/

namespace Gunns.Flow

theorem ordered_append {P : Event → List Event → Prop} {log : List Event} {e : Event}
    (h : Ordered P log) (he : P e log) : Ordered P (log ++ [e]) := by
  intro a e' b hab
  rcases List.eq_nil_or_concat b with rfl | ⟨b', x, rfl⟩
  · obtain ⟨h1, h2⟩ := List.append_inj' (t₁ := [e]) (t₂ := [e']) (by simpa using hab) rfl
    subst h1
    have h3 : e = e' := by simpa using h2
    subst h3; exact he
  · have h1 : log ++ [e] = (a ++ e' :: b') ++ [x] := by simpa using hab
    exact h _ _ _ (List.append_inj' h1 rfl).1

theorem ready_iff (net : Net) (s : St) (l : Nat) :
    linkSourceNodesReady net s l = true ↔ ∀ n, net.Draws l n → s.nodeState n ≠ .overflowing := by
  unfold linkSourceNodesReady
  have h := loop_inv (f := fun p r => if net.dir l p = .source ∨ net.dir l p = .both then
      (if s.nodeState (net.node l p) = .overflowing then false else r) else r) (s := true)
    (fun k r => r = true ↔ ∀ p, p < k → (net.dir l p = .source ∨ net.dir l p = .both) →
      s.nodeState (net.node l p) ≠ .overflowing) (net.ports l) (by simp) (by
    intro k _ r hr
    have hk : ∀ (Q : Nat → Prop), (∀ p, p < k + 1 → Q p) ↔ (∀ p, p < k → Q p) ∧ Q k := by
      intro Q
      constructor
      · intro h; exact ⟨fun p hp => h p (by omega), h k (by omega)⟩
      · rintro ⟨h1, h2⟩ p hp
        rcases Nat.lt_succ_iff_lt_or_eq.mp hp with h | rfl
        · exact h1 p h
        · exact h2
    rw [hk]
    split_ifs with h1 h2
    · constructor
      · intro c; cases c
      · intro c; exact absurd h2 (c.2 h1)
    · rw [hr]; exact ⟨fun c => ⟨c, fun _ => h2⟩, fun c => c.1⟩
    · rw [hr]; exact ⟨fun c => ⟨c, fun c' => absurd c' h1⟩, fun c => c.1⟩)
  rw [h]
  constructor
  · rintro h n ⟨p, hp, rfl, hd⟩; exact h p hp hd
  · intro h p hp hd; exact h _ ⟨p, hp, rfl, hd⟩

theorem inputs_iff (net : Net) (s : St) (n : Nat) :
    nodeInputLinksComplete net s n = true ↔
      ∀ l, l < net.links → net.Feeds l n → s.linkDone l = true := by
  unfold nodeInputLinksComplete
  have hk : ∀ (k : Nat) (Q : Nat → Prop), (∀ p, p < k + 1 → Q p) ↔ (∀ p, p < k → Q p) ∧ Q k := by
    intro k Q
    constructor
    · intro h; exact ⟨fun p hp => h p (by omega), h k (by omega)⟩
    · rintro ⟨h1, h2⟩ p hp
      rcases Nat.lt_succ_iff_lt_or_eq.mp hp with h | rfl
      · exact h1 p h
      · exact h2
  have inner : ∀ l r, loop (fun p r => if n = net.node l p ∧ s.linkDone l = false ∧
      (net.dir l p = .sink ∨ net.dir l p = .both) then false else r) (net.ports l) r = true ↔
      r = true ∧ (net.Feeds l n → s.linkDone l = true) := by
    intro l r
    have := loop_inv (f := fun p r => if n = net.node l p ∧ s.linkDone l = false ∧
      (net.dir l p = .sink ∨ net.dir l p = .both) then false else r) (s := r)
      (fun k r' => r' = true ↔ r = true ∧ ∀ p, p < k → ¬ (n = net.node l p ∧ s.linkDone l = false ∧
        (net.dir l p = .sink ∨ net.dir l p = .both))) (net.ports l) (by simp) (by
      intro k _ r' hr
      rw [hk]
      split_ifs with h1
      · constructor
        · intro c; cases c
        · intro c; exact absurd h1 c.2.2
      · rw [hr]; exact ⟨fun c => ⟨c.1, c.2, h1⟩, fun c => ⟨c.1, c.2.1⟩⟩)
    rw [this]
    refine and_congr_right fun _ => ?_
    constructor
    · rintro h ⟨p, hp, hn, hd⟩
      by_contra c
      exact h p hp ⟨hn.symm, by simpa using c, hd⟩
    · rintro h p hp ⟨h1, h2, h3⟩
      rw [h ⟨p, hp, h1.symm, h3⟩] at h2
      cases h2
  have h := loop_inv (f := fun l r => loop (fun p r => if n = net.node l p ∧ s.linkDone l = false ∧
      (net.dir l p = .sink ∨ net.dir l p = .both) then false else r) (net.ports l) r) (s := true)
    (fun k r => r = true ↔ ∀ l, l < k → net.Feeds l n → s.linkDone l = true) net.links (by simp) (by
    intro k _ r hr
    rw [inner, hr, hk])
  exact h

/-- Number of incomplete links among the first `k`. -/
def openLinks (done : Nat → Bool) (k : Nat) : Nat := loop (fun l c => if done l = false then c + 1 else c) k 0

theorem count_eq (net : Net) (s : St) : countIncompleteLinks net s = openLinks s.linkDone net.links := rfl

theorem openLinks_mono {d d' : Nat → Bool} (h : ∀ l, d l = true → d' l = true) (k : Nat) :
    openLinks d' k ≤ openLinks d k := by
  induction k with
  | zero => exact Nat.le_refl _
  | succ k ih =>
    simp only [openLinks, loop_succ] at ih ⊢
    split_ifs with h1 h2 h2
    · omega
    · rw [h k (by simpa using h2)] at h1; cases h1
    · omega
    · exact ih

theorem openLinks_lt {d d' : Nat → Bool} (h : ∀ l, d l = true → d' l = true) {k l : Nat} (hl : l < k)
    (h1 : d l = false) (h2 : d' l = true) : openLinks d' k < openLinks d k := by
  induction k with
  | zero => omega
  | succ k ih =>
    have hm := openLinks_mono h k
    simp only [openLinks, loop_succ] at ih hm ⊢
    by_cases e : l = k
    · subst e
      rw [if_neg (by rw [h2]; decide), if_pos h1]; omega
    · have := ih (by omega)
      split_ifs with a b b
      · omega
      · rw [h k (by simpa using b)] at a; cases a
      · omega
      · exact this

theorem openLinks_zero {d : Nat → Bool} {k : Nat} : openLinks d k = 0 ↔ ∀ l, l < k → d l = true := by
  induction k with
  | zero => simp [openLinks]
  | succ k ih =>
    simp only [openLinks, loop_succ] at ih ⊢
    constructor
    · intro h l hl
      split_ifs at h with a
      rcases Nat.lt_succ_iff_lt_or_eq.mp hl with h' | rfl
      · exact ih.mp h l h'
      · simpa using a
    · intro h
      rw [if_neg (by rw [h k (by omega)]; decide)]
      exact ih.mpr (fun l hl => h l (by omega))

theorem openLinks_eq {d d' : Nat → Bool} (h : ∀ l, d l = true → d' l = true) {k : Nat}
    (he : openLinks d k ≤ openLinks d' k) : ∀ l, l < k → d' l = true → d l = true := by
  intro l hl h2
  by_contra h1
  have := openLinks_lt h hl (by simpa using h1) h2
  omega

theorem nodesComplete_iff (net : Net) (s : St) :
    checkAllNodesComplete net s = true ↔ ∀ n, n < net.nodes → s.nodeState n = .complete := by
  unfold checkAllNodesComplete
  exact loop_inv (f := fun n r => if s.nodeState n ≠ .complete then false else r) (s := true)
    (fun k r => r = true ↔ ∀ n, n < k → s.nodeState n = .complete) net.nodes (by simp) (by
    intro k _ r hr
    constructor
    · intro h n hn
      split_ifs at h with a
      rcases Nat.lt_succ_iff_lt_or_eq.mp hn with h' | rfl
      · exact hr.mp h n h'
      · simpa using a
    · intro h
      rw [if_neg (not_not.mpr (h k (by omega)))]
      exact hr.mpr (fun n hn => h n (by omega)))

theorem first_spec (net : Net) (s : St) :
    (getFirstIncompleteLink net s = none ↔ ∀ l, l < net.links → s.linkDone l = true) ∧
    ∀ l, getFirstIncompleteLink net s = some l → l < net.links ∧ s.linkDone l = false := by
  unfold getFirstIncompleteLink
  exact loop_inv (f := fun l r => if r = none ∧ s.linkDone l = false then some l else r)
    (s := (none : Option Nat))
    (fun k r => (r = none ↔ ∀ l, l < k → s.linkDone l = true) ∧
      ∀ l, r = some l → l < k ∧ s.linkDone l = false) net.links (by simp) (by
    rintro k _ r ⟨h1, h2⟩
    split_ifs with a
    · refine ⟨⟨fun c => c.elim, fun c => ?_⟩, ?_⟩
      · rw [c k (by omega)] at a; cases a.2
      · rintro l ⟨rfl⟩; exact ⟨by omega, a.2⟩
    · refine ⟨⟨fun c l hl => ?_, fun c => h1.mpr fun l hl => c l (by omega)⟩, ?_⟩
      · rcases Nat.lt_succ_iff_lt_or_eq.mp hl with h' | rfl
        · exact h1.mp c l h'
        · by_contra d; exact a ⟨c, by simpa using d⟩
      · intro l hl; exact ⟨by have := (h2 l hl).1; omega, (h2 l hl).2⟩)

/-! ## The invariant -/

structure Inv (net : Net) (s : St) : Prop where
  tr : ∀ l, s.log.countP (Event.isTransport l) = if s.linkDone l = true then 1 else 0
  int : ∀ n, s.log.count (.integrate n) = if n < net.nodes ∧ s.nodeState n = .complete then 1 else 0
  comp : ∀ l, s.log.count (.compute l) = if l < net.links then 1 else 0
  state : ∀ n, s.nodeState n ≠ .complete →
    n < net.nodes ∧ s.nodeState n = if net.over n then .overflowing else .incomplete
  lim : ∀ l, s.linkDone l = true → l < net.links
  ord : Ordered net.Proper s.log

theorem start_inv (net : Net) : Inv net (start net) := by
  have h := loop_inv (f := fun l log => log ++ [Event.compute l]) (s := ([] : List Event))
    (fun k log => (∀ l, log.countP (Event.isTransport l) = 0) ∧ (∀ n, log.count (Event.integrate n) = 0) ∧
      (∀ l, log.count (.compute l) = if l < k then 1 else 0) ∧ (∀ e, e ∈ log → ∃ l, e = .compute l) ∧
      (k ≤ net.links → Ordered net.Proper log)) net.links
    (by
      refine ⟨by simp, by simp, by simp, by simp, ?_⟩
      intro _ a e b h
      simp at h)
    (by
      rintro k _ log ⟨h1, h2, h3, h4, h5⟩
      refine ⟨?_, ?_, ?_, ?_, ?_⟩
      · intro l
        rw [List.countP_append, h1]
        simp [Event.isTransport]
      · intro n
        rw [List.count_append, h2]
        simp
      · intro l
        rw [List.count_append, h3]
        by_cases hl : l = k
        · subst hl; simp
        · have : ¬ (k = l) := fun c => hl c.symm
          rw [List.count_singleton]
          simp only [beq_iff_eq, Event.compute.injEq, this, if_false, Nat.add_zero]
          by_cases h : l < k
          · rw [if_pos h, if_pos (by omega)]
          · rw [if_neg h, if_neg (by omega)]
      · intro e he
        rcases List.mem_append.mp he with h | h
        · exact h4 e h
        · exact ⟨k, by simpa using h⟩
      · intro hk
        exact ordered_append (h5 (by omega)) ⟨by omega, h4⟩)
  obtain ⟨h1, h2, h3, -, h5⟩ := h
  refine ⟨?_, ?_, h3, ?_, ?_, h5 (Nat.le_refl _)⟩
  · intro l
    exact (h1 l).trans (by simp [start])
  · intro n
    refine (h2 n).trans ?_
    rw [if_neg]
    rintro ⟨hn, hc⟩
    simp only [start, hn, if_true] at hc
    split_ifs at hc
  · intro n hn
    unfold start at hn ⊢
    dsimp only at hn ⊢
    by_cases h : n < net.nodes
    · exact ⟨h, by rw [if_pos h]⟩
    · rw [if_neg h] at hn; exact absurd rfl hn
  · intro l h; cases h

theorem mem_compute {net : Net} {s : St} (h : Inv net s) : ∀ k, k < net.links → Event.compute k ∈ s.log := by
  intro k hk
  rw [← List.count_pos_iff, h.comp, if_pos hk]; omega

theorem mem_integrate {net : Net} {s : St} (h : Inv net s) {n : Nat} (hn : n < net.nodes)
    (hc : s.nodeState n = .complete) : Event.integrate n ∈ s.log := by
  rw [← List.count_pos_iff, h.int, if_pos ⟨hn, hc⟩]; omega

theorem mem_transport {net : Net} {s : St} (h : Inv net s) {l : Nat} (hl : s.linkDone l = true) :
    ∃ e, e ∈ s.log ∧ e.isTransport l := by
  have : 0 < s.log.countP (Event.isTransport l) := by rw [h.tr, if_pos hl]; omega
  obtain ⟨e, he, h2⟩ := List.countP_pos_iff.mp this
  exact ⟨e, he, h2⟩

theorem transport_inv {net : Net} {s : St} (h : Inv net s) {l : Nat} (hl : l < net.links)
    (hd : s.linkDone l = false) {early : Bool}
    (hr : early = false → ∀ n, net.Draws l n → s.nodeState n ≠ .overflowing) :
    Inv net (transport l early s) := by
  refine ⟨?_, ?_, ?_, h.state, ?_, ?_⟩
  · intro k
    show (s.log ++ [Event.transport l early]).countP _ = if (if k = l then true else s.linkDone k) = true then 1 else 0
    rw [List.countP_append, h.tr]
    by_cases hk : k = l
    · subst hk
      rw [hd]
      cases early <;> simp [Event.isTransport]
    · rw [if_neg hk]
      have : ¬ l = k := fun c => hk c.symm
      simp [Event.isTransport, this]
  · intro n
    show (s.log ++ [Event.transport l early]).count _ = _
    rw [List.count_append, h.int]
    simp [transport]
  · intro k
    show (s.log ++ [Event.transport l early]).count _ = _
    rw [List.count_append, h.comp]
    simp
  · intro k hk
    change (if k = l then true else s.linkDone k) = true at hk
    split_ifs at hk with a
    · rw [a]; exact hl
    · exact h.lim k hk
  · refine ordered_append h.ord ⟨hl, mem_compute h, ?_⟩
    intro he n hdr ho
    refine mem_integrate h ho.1 ?_
    by_contra hc
    have := (h.state n hc).2
    rw [ho.2, if_pos rfl] at this
    exact hr he n hdr this

theorem integrate_inv {net : Net} {s : St} (h : Inv net s) {n : Nat} (hn : n < net.nodes)
    (hc : s.nodeState n ≠ .complete) (hi : ∀ l, l < net.links → net.Feeds l n → s.linkDone l = true) :
    Inv net (integrate n s) := by
  refine ⟨?_, ?_, ?_, ?_, h.lim, ?_⟩
  · intro k
    show (s.log ++ [Event.integrate n]).countP _ = if s.linkDone k = true then 1 else 0
    rw [List.countP_append, h.tr]
    simp [Event.isTransport]
  · intro k
    show (s.log ++ [Event.integrate n]).count _ = if k < net.nodes ∧ (if k = n then NodeState.complete else s.nodeState k) = .complete then 1 else 0
    rw [List.count_append, h.int]
    by_cases hk : k = n
    · subst hk
      rw [if_neg (fun c => hc c.2), if_pos rfl, if_pos ⟨hn, rfl⟩]
      simp
    · have : ¬ n = k := fun c => hk c.symm
      rw [if_neg hk]
      simp [this]
  · intro k
    show (s.log ++ [Event.integrate n]).count _ = _
    rw [List.count_append, h.comp]
    simp
  · intro k hk
    change (if k = n then NodeState.complete else s.nodeState k) ≠ .complete at hk
    have hkn : k ≠ n := fun c => by rw [if_pos c] at hk; exact hk rfl
    rw [if_neg hkn] at hk
    have := h.state k hk
    refine ⟨this.1, ?_⟩
    show (if k = n then NodeState.complete else s.nodeState k) = _
    rw [if_neg hkn]; exact this.2
  · refine ordered_append h.ord ⟨hn, ?_⟩
    intro l hl hf
    exact mem_transport h (hi l hl hf)

/-- What a pass over the links does. -/
theorem linkPass_spec {net : Net} {s : St} (h : Inv net s) :
    Inv net (linkPass net s) ∧ (linkPass net s).nodeState = s.nodeState ∧ (linkPass net s).num = s.num ∧
    (∀ l, s.linkDone l = true → (linkPass net s).linkDone l = true) ∧
    (∀ l, l < net.links → (linkPass net s).linkDone l = false →
      ∃ n, net.Draws l n ∧ s.nodeState n = .overflowing) ∧
    (∀ l, (∀ n, net.Draws l n → s.nodeState n ≠ .overflowing) → l < net.links →
      (linkPass net s).linkDone l = true) ∧
    (∀ l, Event.transport l true ∈ (linkPass net s).log → Event.transport l true ∈ s.log) := by
  have key := loop_inv (f := fun l s => if s.linkDone l = false ∧ linkSourceNodesReady net s l = true
    then transport l false s else s) (s := s)
    (fun k t => k ≤ net.links → Inv net t ∧ t.nodeState = s.nodeState ∧ t.num = s.num ∧
      (∀ l, s.linkDone l = true → t.linkDone l = true) ∧
      (∀ l, (∀ n, net.Draws l n → s.nodeState n ≠ .overflowing) → l < k → t.linkDone l = true) ∧
      (∀ l, Event.transport l true ∈ t.log → Event.transport l true ∈ s.log)) net.links
    (fun _ => ⟨h, rfl, rfl, fun _ c => c, fun l _ c => by omega, fun _ c => c⟩) (by
    intro k hk t ht _
    obtain ⟨h1, h2, h3, h4, h5, h6⟩ := ht (by omega)
    split_ifs with a
    · obtain ⟨a1, a2⟩ := a
      rw [ready_iff] at a2
      refine ⟨transport_inv h1 hk a1 (fun _ => a2), h2, h3, ?_, ?_, ?_⟩
      · intro l hl
        show (if l = k then true else t.linkDone l) = true
        rw [h4 l hl, ite_self]
      · intro l hl hlk
        show (if l = k then true else t.linkDone l) = true
        split_ifs with c
        · rfl
        · exact h5 l hl (by omega)
      · intro l hl
        rcases List.mem_append.mp hl with c | c
        · exact h6 l c
        · simp at c
    · refine ⟨h1, h2, h3, h4, ?_, h6⟩
      intro l hl hlk
      rcases Nat.lt_succ_iff_lt_or_eq.mp hlk with c | rfl
      · exact h5 l hl c
      · by_contra d
        exact a ⟨by simpa using d, (ready_iff _ _ _).mpr (by rw [h2]; exact hl)⟩)
  obtain ⟨h1, h2, h3, h4, h5, h6⟩ := key (Nat.le_refl _)
  refine ⟨h1, h2, h3, h4, ?_, h5, h6⟩
  intro l hl hd
  by_contra c
  have c' : ∀ n, net.Draws l n → s.nodeState n ≠ .overflowing := fun n hn e => c ⟨n, hn, e⟩
  have := h5 l c' hl
  unfold linkPass at hd
  rw [this] at hd; cases hd

/-- What a pass over the nodes does. -/
theorem nodePass_spec {net : Net} {s : St} (h : Inv net s) :
    Inv net (nodePass net s) ∧ (nodePass net s).linkDone = s.linkDone ∧ (nodePass net s).num = s.num ∧
    (∀ n, n < net.nodes → (nodePass net s).nodeState n ≠ .complete →
      ∃ l, l < net.links ∧ net.Feeds l n ∧ s.linkDone l = false) ∧
    (∀ n, (nodePass net s).nodeState n ≠ s.nodeState n → n < net.nodes ∧ s.nodeState n ≠ .complete ∧
      ∀ l, l < net.links → net.Feeds l n → s.linkDone l = true) ∧
    (∀ l b, Event.transport l b ∈ (nodePass net s).log → Event.transport l b ∈ s.log) := by
  have key := loop_inv (f := fun n s => if s.nodeState n ≠ .complete ∧ nodeInputLinksComplete net s n = true
    then integrate n s else s) (s := s)
    (fun k t => k ≤ net.nodes → Inv net t ∧ t.linkDone = s.linkDone ∧ t.num = s.num ∧
      (∀ n, n < k → t.nodeState n ≠ .complete → ∃ l, l < net.links ∧ net.Feeds l n ∧ s.linkDone l = false) ∧
      (∀ n, t.nodeState n ≠ s.nodeState n → n < net.nodes ∧ s.nodeState n ≠ .complete ∧
        ∀ l, l < net.links → net.Feeds l n → s.linkDone l = true) ∧
      (∀ l b, Event.transport l b ∈ t.log → Event.transport l b ∈ s.log)) net.nodes
    (fun _ => ⟨h, rfl, rfl, fun l c => by omega, fun n c => absurd rfl c, fun _ _ c => c⟩) (by
    intro k hk t ht _
    obtain ⟨h1, h2, h3, h4, h5, h6⟩ := ht (by omega)
    split_ifs with a
    · obtain ⟨a1, a2⟩ := a
      rw [inputs_iff] at a2
      refine ⟨integrate_inv h1 hk a1 a2, h2, h3, ?_, ?_, ?_⟩
      · intro n hn hc
        change (if n = k then NodeState.complete else t.nodeState n) ≠ .complete at hc
        have hnk : n ≠ k := fun c => by rw [if_pos c] at hc; exact hc rfl
        rw [if_neg hnk] at hc
        exact h4 n (by omega) hc
      · intro n hc
        change (if n = k then NodeState.complete else t.nodeState n) ≠ s.nodeState n at hc
        by_cases hnk : n = k
        · subst hnk
          refine ⟨hk, ?_, by rw [← h2]; exact a2⟩
          by_cases e : t.nodeState n = s.nodeState n
          · rw [← e]; exact a1
          · exact (h5 n e).2.1
        · rw [if_neg hnk] at hc; exact h5 n hc
      · intro l b hl
        rcases List.mem_append.mp hl with c | c
        · exact h6 l b c
        · simp at c
    · refine ⟨h1, h2, h3, ?_, h5, h6⟩
      intro n hn hc
      rcases Nat.lt_succ_iff_lt_or_eq.mp hn with c | rfl
      · exact h4 n c hc
      · by_contra d
        refine a ⟨hc, (inputs_iff _ _ _).mpr ?_⟩
        intro l hl hf
        by_contra e
        exact d ⟨l, hl, hf, by rw [h2] at e; simpa using e⟩)
  exact key (Nat.le_refl _)

/-! ## The loop -/

/-- Measure of the do-while loop. -/
def work (net : Net) (s : St) : Nat :=
  2 * openLinks s.linkDone net.links + if openLinks s.linkDone net.links < s.num then 1 else 0

theorem inv_num {net : Net} {s : St} (h : Inv net s) (k : Nat) : Inv net { s with num := k } :=
  ⟨h.tr, h.int, h.comp, h.state, h.lim, h.ord⟩

/-- One pass with its check: either everything is complete, or the loop goes on with less work; the
exception is not raised. -/
theorem pass_spec {net : Net} {s : St} (h : Inv net s) :
    (∃ t, checkAllComplete net (nodePass net (linkPass net s)) = .value true t ∧ Inv net t ∧
      (∀ l, l < net.links → t.linkDone l = true) ∧ (∀ n, n < net.nodes → t.nodeState n = .complete) ∧
      t.num = 0 ∧ (∀ l b, Event.transport l b ∈ t.log → Event.transport l b ∈ (linkPass net s).log)) ∨
    (∃ t, checkAllComplete net (nodePass net (linkPass net s)) = .value false t ∧ Inv net t ∧
      work net t < work net s ∧
      openLinks t.linkDone net.links ≤ t.num ∧
      ((t.linkDone = (linkPass net s).linkDone ∧ t.nodeState = (nodePass net (linkPass net s)).nodeState ∧
        (∀ l b, Event.transport l b ∈ t.log → Event.transport l b ∈ (linkPass net s).log)) ∨
       s.num ≤ openLinks (linkPass net s).linkDone net.links ∧ 0 < openLinks (linkPass net s).linkDone net.links ∧
        ∃ l, Event.transport l true ∈ t.log)) := by
  obtain ⟨a1, a2, a3, a4, a5, a6, a7⟩ := linkPass_spec h
  obtain ⟨b1, b2, b3, b4, b5, b6⟩ := nodePass_spec a1
  set s1 := nodePass net (linkPass net s) with hs1
  have hc : countIncompleteLinks net s1 = openLinks (linkPass net s).linkDone net.links := by
    rw [count_eq, b2]
  have hmono := openLinks_mono a4 net.links
  unfold checkAllComplete
  rw [hc]
  by_cases hz : openLinks (linkPass net s).linkDone net.links = 0
  · have hall := openLinks_zero.mp hz
    have hn : ∀ n, n < net.nodes → s1.nodeState n = .complete := by
      intro n hn
      by_contra e
      obtain ⟨l, hl, -, hd⟩ := b4 n hn e
      rw [hall l hl] at hd; cases hd
    left
    refine ⟨{ s1 with num := 0 }, ?_, inv_num b1 0, ?_, hn, rfl, b6⟩
    · simp only
      rw [if_pos ⟨hz, (nodesComplete_iff net s1).mpr hn⟩]
    · intro l hl
      show s1.linkDone l = true
      rw [b2]; exact hall l hl
  · right
    simp only
    rw [if_neg (fun c => hz c.1)]
    by_cases hge : openLinks (linkPass net s).linkDone net.links ≥ s1.num
    · rw [if_pos hge]
      cases hf : getFirstIncompleteLink net s1 with
      | none =>
        have := (first_spec net s1).1.mp hf
        rw [b2] at this
        exact absurd (openLinks_zero.mpr this) hz
      | some l =>
        obtain ⟨f1, f2⟩ := (first_spec net s1).2 l hf
        have hlt : openLinks (transport l true s1).linkDone net.links < openLinks s1.linkDone net.links :=
          openLinks_lt (l := l) (fun k hk => by show (if k = l then true else s1.linkDone k) = true; rw [hk, ite_self])
            f1 f2 (by show (if l = l then true else s1.linkDone l) = true; rw [if_pos rfl])
        rw [b2] at hlt
        refine ⟨{ transport l true s1 with num := openLinks (linkPass net s).linkDone net.links }, rfl,
          inv_num (transport_inv b1 f1 f2 (fun c => by cases c)) _, ?_, Nat.le_of_lt hlt, Or.inr ⟨?_, by omega, l, ?_⟩⟩
        · unfold work
          dsimp only
          rw [if_pos hlt]
          rw [b3, a3] at hge
          split_ifs <;> omega
        · rw [b3, a3] at hge; exact hge
        · exact List.mem_append.mpr (Or.inr (by simp))
    · rw [if_neg hge]
      rw [b3, a3] at hge
      refine ⟨{ s1 with num := openLinks (linkPass net s).linkDone net.links }, rfl, inv_num b1 _, ?_, ?_,
        Or.inl ⟨b2, rfl, b6⟩⟩
      · unfold work
        dsimp only
        rw [b2, if_neg (Nat.lt_irrefl _)]
        split_ifs <;> omega
      · show openLinks s1.linkDone net.links ≤ openLinks (linkPass net s).linkDone net.links
        exact Nat.le_of_eq (by rw [b2])

theorem passes_done {net : Net} : ∀ fuel s, Inv net s → work net s < fuel →
    ∃ t, passes net fuel s = .done t ∧ Inv net t ∧ (∀ l, l < net.links → t.linkDone l = true) ∧
      (∀ n, n < net.nodes → t.nodeState n = .complete) ∧ t.num = 0 := by
  intro fuel
  induction fuel with
  | zero => intro s _ h; omega
  | succ fuel ih =>
    intro s h hw
    unfold passes
    rcases pass_spec h with ⟨t, h1, h2, h3, h4, h5, -⟩ | ⟨t, h1, h2, h3, -, -⟩
    · simp only [h1]; exact ⟨t, rfl, h2, h3, h4, h5⟩
    · simp only [h1]; exact ih t h2 (by omega)

theorem passes_inv {net : Net} : ∀ fuel s, Inv net s → ∀ t, passes net fuel s = .done t → Inv net t := by
  intro fuel
  induction fuel with
  | zero => intro s _ t h; simp [passes] at h
  | succ fuel ih =>
    intro s h t
    unfold passes
    rcases pass_spec h with ⟨t', h1, h2, -⟩ | ⟨t', h1, h2, -⟩
    · simp only [h1]; intro c; cases c; exact h2
    · simp only [h1]; exact ih t' h2 t

theorem passes_log {net : Net} : ∀ fuel s, Inv net s → ∀ t, passes net fuel s = .done t →
    ∀ e, e ∈ s.log → e ∈ t.log := by
  have hl : ∀ s, ∀ e, e ∈ s.log → e ∈ (linkPass net s).log := by
    intro s e he
    exact loop_inv (f := fun l s => if s.linkDone l = false ∧ linkSourceNodesReady net s l = true
      then transport l false s else s) (s := s) (fun _ t => e ∈ t.log) net.links he (by
      intro k _ t ht
      split_ifs
      · exact List.mem_append.mpr (Or.inl ht)
      · exact ht)
  have hn : ∀ s, ∀ e, e ∈ s.log → e ∈ (nodePass net s).log := by
    intro s e he
    exact loop_inv (f := fun n s => if s.nodeState n ≠ .complete ∧ nodeInputLinksComplete net s n = true
      then integrate n s else s) (s := s) (fun _ t => e ∈ t.log) net.nodes he (by
      intro k _ t ht
      split_ifs
      · exact List.mem_append.mpr (Or.inl ht)
      · exact ht)
  have hc : ∀ s b t, checkAllComplete net s = .value b t → ∀ e, e ∈ s.log → e ∈ t.log := by
    intro s b t h e he
    unfold checkAllComplete at h
    simp only at h
    split_ifs at h
    · cases h; exact he
    · cases hf : getFirstIncompleteLink net s with
      | none => rw [hf] at h; cases h
      | some l => rw [hf] at h; cases h; exact List.mem_append.mpr (Or.inl he)
    · cases h; exact he
  intro fuel
  induction fuel with
  | zero => intro s _ t h; simp [passes] at h
  | succ fuel ih =>
    intro s h t
    unfold passes
    rcases pass_spec h with ⟨t', h1, h2, -⟩ | ⟨t', h1, h2, -⟩
    · simp only [h1]; intro c e he; cases c; exact hc _ _ _ h1 e (hn _ e (hl _ e he))
    · simp only [h1]
      intro c e he
      exact ih t' h2 t c e (hc _ _ _ h1 e (hn _ e (hl _ e he)))

/-- If no link can go at the start, one is forced after the first pass. -/
theorem first_forced {net : Net} (h0 : 0 < net.links)
    (hall : ∀ l, l < net.links → ∃ n, net.Draws l n ∧ (start net).nodeState n = .overflowing)
    (fuel : Nat) (t : St) (h : passes net fuel (start net) = .done t) :
    ∃ l, Event.transport l true ∈ t.log := by
  cases fuel with
  | zero => simp [passes] at h
  | succ fuel =>
    have hi := start_inv net
    obtain ⟨a1, a2, a3, a4, a5, a6, a7⟩ := linkPass_spec hi
    have hnone : ∀ l, (linkPass net (start net)).linkDone l = false := by
      have := loop_inv (f := fun l s => if s.linkDone l = false ∧ linkSourceNodesReady net s l = true
        then transport l false s else s) (s := start net)
        (fun k t => (∀ l, t.linkDone l = false) ∧ t.nodeState = (start net).nodeState) net.links
        ⟨fun _ => rfl, rfl⟩ (by
        rintro k hk t ⟨h1, h2⟩
        split_ifs with a
        · obtain ⟨n, hn, hs⟩ := hall k hk
          exact absurd (by rw [h2]; exact hs) ((ready_iff net t k).mp a.2 n hn)
        · exact ⟨h1, h2⟩)
      exact this.1
    have hcount : openLinks (linkPass net (start net)).linkDone net.links = net.links := by
      have : ∀ k, openLinks (linkPass net (start net)).linkDone k = k := by
        intro k
        induction k with
        | zero => rfl
        | succ k ih =>
          simp only [openLinks, loop_succ] at ih ⊢
          rw [ih, if_pos (hnone k)]
      exact this _
    unfold passes at h
    rcases pass_spec hi with ⟨t', h1, h2, h3, -, -, -⟩ | ⟨t', h1, h2, -, h4, h5⟩
    · exfalso
      have e : countIncompleteLinks net (nodePass net (linkPass net (start net))) = net.links := by
        rw [count_eq, (nodePass_spec a1).2.1, hcount]
      unfold checkAllComplete at h1
      simp only [e] at h1
      split_ifs at h1 with c1 c2
      · omega
      · cases hf : getFirstIncompleteLink net (nodePass net (linkPass net (start net))) with
        | none => rw [hf] at h1; cases h1
        | some l => rw [hf] at h1; cases h1
      · cases h1
    · simp only [h1] at h
      have hex : ∃ l, Event.transport l true ∈ t'.log := by
        rcases h5 with ⟨h5, h6, h7⟩ | ⟨-, -, h5⟩
        · exfalso
          have e : countIncompleteLinks net (nodePass net (linkPass net (start net))) = net.links := by
            rw [count_eq, (nodePass_spec a1).2.1, hcount]
          have en : (nodePass net (linkPass net (start net))).num = net.links := by
            rw [(nodePass_spec a1).2.2.1, a3]; rfl
          unfold checkAllComplete at h1
          simp only [e, en] at h1
          rw [if_neg (fun c => by omega), if_pos (Nat.le_refl _)] at h1
          cases hf : getFirstIncompleteLink net (nodePass net (linkPass net (start net))) with
          | none => rw [hf] at h1; cases h1
          | some l =>
            rw [hf] at h1
            cases h1
            have := congrFun h5 l
            rw [hnone l] at this
            change (if l = l then true else _) = false at this
            rw [if_pos rfl] at this
            cases this
        · exact h5
      obtain ⟨l, hl⟩ := hex
      exact ⟨l, passes_log fuel t' h2 t h _ hl⟩

theorem passes_no_abort {net : Net} : ∀ fuel s, Inv net s → ∀ t, passes net fuel s ≠ .aborted t := by
  intro fuel
  induction fuel with
  | zero => intro s _ t h; simp [passes] at h
  | succ fuel ih =>
    intro s h t
    unfold passes
    rcases pass_spec h with ⟨t', h1, -⟩ | ⟨t', h1, h2, -⟩
    · simp only [h1]; intro c; cases c
    · simp only [h1]; exact ih t' h2 t

/-- Every incomplete node has an incomplete link feeding it. -/
def Settled (net : Net) (s : St) : Prop :=
  ∀ n, n < net.nodes → s.nodeState n ≠ .complete → ∃ l, l < net.links ∧ net.Feeds l n ∧ s.linkDone l = false

/-- Some incomplete link can go. -/
def Movable (net : Net) (s : St) : Prop :=
  ∃ l, l < net.links ∧ s.linkDone l = false ∧ ∀ n, net.Draws l n → s.nodeState n ≠ .overflowing

/-- Without cycles a settled state with incomplete links has one that can go. -/
theorem movable_of_settled {net : Net} {s : St} (hi : Inv net s) (ha : net.Acyclic) (h : Settled net s)
    (ho : 0 < openLinks s.linkDone net.links) : Movable net s := by
  obtain ⟨rank, hr⟩ := ha
  have hex : ∃ l, l < net.links ∧ s.linkDone l = false := by
    by_contra c
    have : openLinks s.linkDone net.links = 0 := openLinks_zero.mpr (fun l hl => by
      by_contra d; exact c ⟨l, hl, by simpa using d⟩)
    omega
  have key : ∀ r l, rank l ≤ r → l < net.links → s.linkDone l = false → Movable net s := by
    intro r
    induction r with
    | zero =>
      intro l hl hl1 hl2
      by_contra c
      have : ¬ ∀ n, net.Draws l n → s.nodeState n ≠ .overflowing := fun d => c ⟨l, hl1, hl2, d⟩
      push Not at this
      obtain ⟨n, hn, hs⟩ := this
      have hst := hi.state n (by rw [hs]; decide)
      obtain ⟨m, hm, hf, hd⟩ := h n hst.1 (by rw [hs]; decide)
      have hov : net.over n = true := by
        by_contra e
        rw [hs, if_neg e] at hst; cases hst.2
      have := hr l m hl1 hm ⟨n, ⟨hst.1, hov⟩, hn, hf⟩
      omega
    | succ r ih =>
      intro l hl hl1 hl2
      by_contra c
      have : ¬ ∀ n, net.Draws l n → s.nodeState n ≠ .overflowing := fun d => c ⟨l, hl1, hl2, d⟩
      push Not at this
      obtain ⟨n, hn, hs⟩ := this
      have hst := hi.state n (by rw [hs]; decide)
      obtain ⟨m, hm, hf, hd⟩ := h n hst.1 (by rw [hs]; decide)
      have hov : net.over n = true := by
        by_contra e
        rw [hs, if_neg e] at hst; cases hst.2
      have := hr l m hl1 hm ⟨n, ⟨hst.1, hov⟩, hn, hf⟩
      exact c (ih m (by omega) hm hd)
  obtain ⟨l, h1, h2⟩ := hex
  exact key (rank l) l (Nat.le_refl _) h1 h2

theorem passes_no_early {net : Net} (ha : net.Acyclic) : ∀ fuel s, Inv net s →
    openLinks s.linkDone net.links ≤ s.num →
    (Movable net s ∨ openLinks s.linkDone net.links = 0) →
    (∀ l, Event.transport l true ∉ s.log) →
    ∀ t, passes net fuel s = .done t → ∀ l, Event.transport l true ∉ t.log := by
  intro fuel
  induction fuel with
  | zero => intro s _ _ _ _ t h; simp [passes] at h
  | succ fuel ih =>
    intro s h hnum hmov hlog t
    obtain ⟨a1, a2, a3, a4, a5, a6, a7⟩ := linkPass_spec h
    obtain ⟨b1, b2, b3, b4, b5, b6⟩ := nodePass_spec a1
    have hlog1 : ∀ l, Event.transport l true ∉ (linkPass net s).log := fun l c => hlog l (a7 l c)
    unfold passes
    rcases pass_spec h with ⟨t', h1, -, -, -, -, h2⟩ | ⟨t', h1, h2, -, h4, h5⟩
    · simp only [h1]
      intro c
      cases c
      exact fun l c => hlog1 l (h2 l true c)
    · simp only [h1]
      rcases h5 with ⟨h5, h6, h7⟩ | ⟨h5, h6, -⟩
      · refine ih t' h2 h4 ?_ (fun l c => hlog1 l (h7 l true c)) t
        by_cases hz : openLinks t'.linkDone net.links = 0
        · exact Or.inr hz
        · left
          refine movable_of_settled h2 ha ?_ (by omega)
          intro n hn hc
          rw [h6] at hc
          obtain ⟨l, hl, hf, hd⟩ := b4 n hn hc
          exact ⟨l, hl, hf, by rw [h5]; exact hd⟩
      · exfalso
        rcases hmov with ⟨l, hl, hd, hr⟩ | hz
        · have := openLinks_lt a4 hl hd (a6 l hr hl)
          omega
        · have := openLinks_mono a4 net.links
          omega

end Gunns.Flow
