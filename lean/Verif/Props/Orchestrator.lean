import Verif.Flow.OrchestratorLemmas
import Mathlib.Data.List.Count
import Mathlib.Data.List.Range

/-!
# Fluid flow orchestration (C27, C28)
-/

namespace Gunns.Props
open Gunns.Flow

/-- **C27.** Whatever the network, its flow directions and overflowing nodes (cycles included): the update
ends within `2·links + 1` passes; in it every link computes its flows once and transports once, every
non-ground node integrates once, nothing else is called, and the calls are properly ordered: flows are
computed first, nodes integrate after all links feeding them, and a transport that was not forced (and
warned about) comes after the integration of the overflowing nodes it draws from. -/
theorem c27_update_completes (net : Net) (fuel : Nat) (hf : 2 * net.links < fuel) :
    ∃ s, update net fuel = .done s ∧ s.num = 0 ∧
      (∀ l, l < net.links → s.log.count (.compute l) = 1 ∧ s.log.countP (Event.isTransport l) = 1) ∧
      (∀ n, n < net.nodes → s.log.count (.integrate n) = 1) ∧
      s.log.length = 2 * net.links + net.nodes ∧
      Ordered net.Proper s.log := by
  have hw : work net (start net) < fuel := by
    unfold work
    have : openLinks (start net).linkDone net.links ≤ net.links := by
      have : ∀ k, openLinks (start net).linkDone k = k := by
        intro k
        induction k with
        | zero => rfl
        | succ k ih => simp only [openLinks, loop_succ] at ih ⊢; rw [ih]; rfl
      exact Nat.le_of_eq (this _)
    have e : (start net).num = net.links := rfl
    rw [e]
    split_ifs <;> omega
  obtain ⟨s, h1, h2, h3, h4, h5⟩ := passes_done fuel (start net) (start_inv net) hw
  have c1 : ∀ l, l < net.links → s.log.count (.compute l) = 1 := fun l hl => by rw [h2.comp, if_pos hl]
  have c2 : ∀ l, s.log.countP (Event.isTransport l) = if l < net.links then 1 else 0 := by
    intro l
    rw [h2.tr]
    by_cases hl : l < net.links
    · rw [if_pos (h3 l hl), if_pos hl]
    · rw [if_neg hl, if_neg (fun c => hl (h2.lim l c))]
  have c3 : ∀ n, n < net.nodes → s.log.count (.integrate n) = 1 := fun n hn => by
    rw [h2.int, if_pos ⟨hn, h4 n hn⟩]
  refine ⟨s, h1, h5, fun l hl => ⟨c1 l hl, by rw [c2, if_pos hl]⟩, c3, ?_, h2.ord⟩
  -- Each event is of one of the three kinds, with a number in range.
  have hmem : ∀ e, e ∈ s.log → (∃ l, l < net.links ∧ e = .compute l) ∨
      (∃ l, l < net.links ∧ e.isTransport l = true) ∨ ∃ n, n < net.nodes ∧ e = .integrate n := by
    intro e he
    obtain ⟨a, b, hab⟩ := List.append_of_mem he
    have hp := h2.ord a e b hab
    cases e with
    | compute l => exact Or.inl ⟨l, hp.1, rfl⟩
    | transport l b => exact Or.inr (Or.inl ⟨l, hp.1, by cases b <;> simp [Event.isTransport]⟩)
    | integrate n => exact Or.inr (Or.inr ⟨n, hp.1, rfl⟩)
  -- Count by kinds.
  let cat : Event → Nat × Nat := fun e => match e with
    | .compute l => (0, l)
    | .transport l _ => (1, l)
    | .integrate n => (2, n)
  have hperm : (s.log.map cat).Perm ((List.range net.links).map (fun l => (0, l)) ++
      (List.range net.links).map (fun l => (1, l)) ++ (List.range net.nodes).map (fun n => (2, n))) := by
    rw [List.perm_iff_count]
    intro x
    have hcat : (s.log.map cat).count x = s.log.countP (fun e => cat e == x) := by
      rw [List.count, List.countP_map]; rfl
    rw [hcat]
    have inj : ∀ c : Nat, ∀ a b : Nat, (c, a) = (c, b) → a = b := fun c a b h => (Prod.mk.inj h).2
    have cnt : ∀ c k, ((List.range k).map (fun l => (c, l))).count x =
        if x.1 = c ∧ x.2 < k then 1 else 0 := by
      intro c k
      by_cases hx : x.1 = c
      · obtain ⟨x1, x2⟩ := x
        dsimp only at hx
        subst hx
        rw [List.count_map_of_injective _ _ (fun a b h => inj x1 a b h)]
        by_cases hk : x2 < k
        · rw [if_pos ⟨rfl, hk⟩]
          exact List.nodup_range.count.trans (if_pos (List.mem_range.mpr hk))
        · rw [if_neg (fun c => hk c.2), List.count_eq_zero]
          exact fun c => hk (List.mem_range.mp c)
      · rw [if_neg (fun c => hx c.1), List.count_eq_zero]
        intro hm
        obtain ⟨l, -, hl⟩ := List.mem_map.mp hm
        exact hx (by rw [← hl])
    rw [List.count_append, List.count_append, cnt, cnt, cnt]
    obtain ⟨x1, x2⟩ := x
    dsimp only
    by_cases h0 : x1 = 0
    · subst h0
      have : s.log.countP (fun e => cat e == (0, x2)) = s.log.count (.compute x2) := by
        rw [List.count]
        apply List.countP_congr
        intro e _
        cases e <;> simp [cat]
      rw [this, h2.comp]
      simp
    · by_cases h1 : x1 = 1
      · subst h1
        have : s.log.countP (fun e => cat e == (1, x2)) = s.log.countP (Event.isTransport x2) := by
          apply List.countP_congr
          intro e _
          cases e with
          | compute l => simp [cat, Event.isTransport]
          | transport l b => cases b <;> simp [cat, Event.isTransport]
          | integrate n => simp [cat, Event.isTransport]
        rw [this, c2]
        simp
      · by_cases h2' : x1 = 2
        · subst h2'
          have : s.log.countP (fun e => cat e == (2, x2)) = s.log.count (.integrate x2) := by
            rw [List.count]
            apply List.countP_congr
            intro e _
            cases e <;> simp [cat]
          rw [this, h2.int]
          by_cases hx : x2 < net.nodes
          · simp [hx, h4 x2 hx]
          · simp [hx]
        · rw [List.countP_eq_zero.mpr]
          · simp [h0, h1, h2']
          · intro e he
            cases e <;> simp [cat] <;> omega
  have := hperm.length_eq
  simp only [List.length_map, List.length_append, List.length_range] at this
  omega

/-- **C27.** The emergency exception is unreachable. -/
theorem c27_never_aborts (net : Net) (fuel : Nat) (s : St) : update net fuel ≠ .aborted s :=
  passes_no_abort fuel (start net) (start_inv net) s

/-- A ring: link 0 from node 0 to node 1, link 1 back; both nodes overflow. -/
def ringNet : Net where
  links := 2
  nodes := 2
  ports _ := 2
  node l p := if l = p then 0 else 1
  dir _ p := if p = 0 then .source else .sink
  over _ := true

/-- In the ring link 0 is forced; then everything completes. -/
example : (match update ringNet 5 with | .done s => s.log | _ => []) =
    [.compute 0, .compute 1, .transport 0 true, .integrate 1, .transport 1 false, .integrate 0] := by
  decide +kernel

/-- **C28.** Without cycles of waiting links and with at least one link that can go at the start, no
transport is forced: every transport comes after the integration of the overflowing nodes it draws from, so
after the transports of all links feeding these nodes. The missing case is in `c28_exact`: it is false when
no link can go at the start, see `c28_first_pass_forces`. -/
theorem c28_no_early_transport_partial (net : Net) (ha : net.Acyclic)
    (hr : ∃ l, l < net.links ∧ ∀ n, net.Draws l n → ¬ net.Overflows n) (fuel : Nat) (s : St)
    (h : update net fuel = .done s) :
    (∀ l, Event.transport l true ∉ s.log) ∧
    ∀ a l b c, s.log = a ++ Event.transport l b :: c → ∀ n, net.Draws l n → net.Overflows n →
      Event.integrate n ∈ a ∧ ∀ m, m < net.links → net.Feeds m n → ∃ e, e ∈ a ∧ e.isTransport m := by
  have hne : ∀ l, Event.transport l true ∉ s.log := by
    refine passes_no_early ha fuel (start net) (start_inv net) ?_ ?_ ?_ s h
    · have : ∀ k, openLinks (start net).linkDone k ≤ k := by
        intro k
        induction k with
        | zero => exact Nat.le_refl _
        | succ k ih => simp only [openLinks, loop_succ] at ih ⊢; split_ifs <;> omega
      exact this _
    · obtain ⟨l, hl, hd⟩ := hr
      refine Or.inl ⟨l, hl, rfl, ?_⟩
      intro n hn hs
      have hst := (start_inv net).state n (by rw [hs]; decide)
      refine hd n hn ⟨hst.1, ?_⟩
      by_contra e
      rw [hs, if_neg e] at hst; cases hst.2
    · intro l hl
      have h0 := (start_inv net).tr l
      have : 0 < (start net).log.countP (Event.isTransport l) :=
        List.countP_pos_iff.mpr ⟨_, hl, by simp [Event.isTransport]⟩
      rw [h0] at this
      simp [start] at this
  refine ⟨hne, ?_⟩
  have hord : Ordered net.Proper s.log := by
    by_cases hf : 2 * net.links < fuel
    · obtain ⟨s', h1, -, -, -, -, h2⟩ := c27_update_completes net fuel hf
      rw [h] at h1
      cases h1; exact h2
    · exact (passes_inv fuel (start net) (start_inv net) s h).ord
  intro a l b c hlog n hd ho
  have hb : b = false := by
    cases b with
    | false => rfl
    | true => exact absurd (by rw [hlog]; simp) (hne l)
  have h1 := (hord a _ c hlog).2.2 hb n hd ho
  refine ⟨h1, ?_⟩
  obtain ⟨a1, a2, ha'⟩ := List.append_of_mem h1
  have h2 := hord a1 (.integrate n) (a2 ++ .transport l b :: c) (by rw [hlog, ha']; simp)
  intro m hm hf
  obtain ⟨e, he, ht⟩ := h2.2 m hm hf
  exact ⟨e, by rw [ha']; exact List.mem_append.mpr (Or.inl he), ht⟩

/-- **C28.** For networks without cycles the exact condition: a transport is forced if and only if every
link draws from an overflowing node at the start (whether or not these nodes have any inflow to wait for). -/
theorem c28_exact (net : Net) (ha : net.Acyclic) (fuel : Nat) (s : St) (h : update net fuel = .done s) :
    (∃ l, Event.transport l true ∈ s.log) ↔
      0 < net.links ∧ ∀ l, l < net.links → ∃ n, net.Draws l n ∧ net.Overflows n := by
  constructor
  · rintro ⟨l, hl⟩
    by_contra c
    by_cases h0 : 0 < net.links
    · have : ∃ l, l < net.links ∧ ∀ n, net.Draws l n → ¬ net.Overflows n := by
        by_contra d
        refine c ⟨h0, fun l hl => ?_⟩
        by_contra e
        exact d ⟨l, hl, fun n h1 h2 => e ⟨n, h1, h2⟩⟩
      exact (c28_no_early_transport_partial net ha this fuel s h).1 l hl
    · have hord := (passes_inv fuel (start net) (start_inv net) s h).ord
      obtain ⟨a, b, hab⟩ := List.append_of_mem hl
      have := (hord a _ b hab).1
      omega
  · rintro ⟨h0, hall⟩
    exact first_forced h0 (fun l hl => by
      obtain ⟨n, h1, h2⟩ := hall l hl
      refine ⟨n, h1, ?_⟩
      show (if n < net.nodes then (if net.over n = true then NodeState.overflowing else .incomplete) else .complete) = _
      rw [if_pos h2.1, if_pos h2.2]) fuel s h

/-- **C28.** The condition holds in particular when the overflowing nodes that are drawn from are fed. -/
theorem c28_fed_nodes (net : Net) (ha : net.Acyclic)
    (hfed : ∀ l n, l < net.links → net.Draws l n → net.Overflows n → ∃ m, m < net.links ∧ net.Feeds m n)
    (fuel : Nat) (s : St) (h : update net fuel = .done s) : ∀ l, Event.transport l true ∉ s.log := by
  intro l hl
  obtain ⟨h0, hall⟩ := (c28_exact net ha fuel s h).mp ⟨l, hl⟩
  obtain ⟨rank, hr⟩ := ha
  have key : ∀ r l, rank l ≤ r → l < net.links → False := by
    intro r
    induction r with
    | zero =>
      intro l hr0 hl
      obtain ⟨n, h1, h2⟩ := hall l hl
      obtain ⟨m, hm, hf⟩ := hfed l n hl h1 h2
      have := hr l m hl hm ⟨n, h2, h1, hf⟩
      omega
    | succ r ih =>
      intro l hr0 hl
      obtain ⟨n, h1, h2⟩ := hall l hl
      obtain ⟨m, hm, hf⟩ := hfed l n hl h1 h2
      have := hr l m hl hm ⟨n, h2, h1, hf⟩
      exact ih m (by omega) hm
  exact key (rank 0) 0 (Nat.le_refl _) h0

/-- A chain: link 0 from node 1 to node 2 (ground), link 1 from node 0 to node 1, both nodes overflow, and
nothing feeds node 0. -/
def chainNet : Net where
  links := 2
  nodes := 2
  ports _ := 2
  node l p := 1 - l + p
  dir _ p := if p = 0 then .source else .sink
  over _ := true

/-- **C28.** The exception. The chain has no cycle (link 0 waits for link 1 only), yet link 0 transports
out of the overflowing node 1 before link 1 has brought that node's inflow. -/
theorem c28_first_pass_forces : chainNet.Acyclic ∧
    ∃ s, update chainNet 5 = .done s ∧ s.log =
      [.compute 0, .compute 1, .integrate 0, .transport 0 true, .transport 1 false, .integrate 1] := by
  refine ⟨⟨fun l => 1 - l, ?_⟩, ?_⟩
  · rintro l m hl hm ⟨n, ho, ⟨p, hp, hn, hd⟩, ⟨q, hq, hn', hd'⟩⟩
    have hl' : l < 2 := hl
    have hm' : m < 2 := hm
    have hp' : p < 2 := hp
    have hq' : q < 2 := hq
    have hn2 : n < 2 := ho.1
    rcases (by omega : p = 0 ∨ p = 1) with rfl | rfl
    · rcases (by omega : q = 0 ∨ q = 1) with rfl | rfl
      · simp [chainNet] at hd'
      · simp only [chainNet] at hn hn'
        show 1 - m < 1 - l
        omega
    · simp [chainNet] at hd
  · refine ⟨_, rfl, ?_⟩
    decide +kernel

/-- With a third link from ground into node 0 nothing is forced: a case for the partial theorem. -/
def fedChain : Net := { chainNet with
  links := 3
  node := fun l p => if l = 2 then (if p = 0 then 2 else 0) else 1 - l + p }

example : (∃ l, l < fedChain.links ∧ ∀ n, fedChain.Draws l n → ¬ fedChain.Overflows n) ∧
    (match update fedChain 7 with | .done s => s.log | _ => []) =
      [.compute 0, .compute 1, .compute 2, .transport 2 false, .integrate 0, .transport 1 false, .integrate 1,
       .transport 0 false] := by
  refine ⟨⟨2, by decide, ?_⟩, by decide +kernel⟩
  rintro n ⟨p, hp, rfl, hd⟩ ho
  have hp' : p < 2 := hp
  have h2 := ho.1
  rcases (by omega : p = 0 ∨ p = 1) with rfl | rfl
  · simp [fedChain, chainNet] at h2
  · simp [fedChain, chainNet] at hd

end Gunns.Props
