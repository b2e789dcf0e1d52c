import Verif.Hs.QueueSpec
import Mathlib.Tactic.Ring
import Mathlib.Tactic.Linarith
import Mathlib.Data.List.Basic
import Mathlib.Data.Nat.ModEq

/-! # Lemmas about the message queue -/

namespace Gunns.Hs

open Spec

/-- The ring of a queue holds these messages, oldest first. -/
structure Ring (q : Queue) (items : List Msg) : Prop where
  two : 2 ≤ q.size
  next : ∀ i, i < q.size → q.next i = some ((i + 1) % q.size)
  ex : ∃ h, h < q.size ∧ q.head = some h ∧ q.tail = some ((h + items.length) % q.size) ∧
    ∀ i, (hi : i < items.length) → q.node ((h + i) % q.size) = items[i]
  room : items.length < q.size

theorem mod_inj {a b s h : Nat} (ha : a < s) (hb : b < s) (e : (h + a) % s = (h + b) % s) :
    a = b := by
  have : (h + a) ≡ (h + b) [MOD s] := e
  have h2 := Nat.ModEq.add_left_cancel' h this
  exact Nat.ModEq.eq_of_lt_of_lt h2 ha hb

theorem Ring.isEmpty_iff {q : Queue} {items : List Msg} (r : Ring q items) :
    q.head = q.tail ↔ items = [] := by
  obtain ⟨h, hl, hh, ht, -⟩ := r.ex
  rw [hh, ht, Option.some.injEq]
  constructor
  · intro e
    have : (h + 0) % q.size = (h + items.length) % q.size := by
      rw [Nat.add_zero, Nat.mod_eq_of_lt hl]; exact e
    have := mod_inj (by have := r.two; omega) r.room this
    exact List.length_eq_zero_iff.mp this.symm
  · intro e
    subst e
    simp [Nat.mod_eq_of_lt hl]

theorem Ring.getSize {q : Queue} {items : List Msg} (r : Ring q items) :
    q.getSize = items.length := by
  obtain ⟨h, hl, hh, ht, -⟩ := r.ex
  have h2 := r.two
  have hr := r.room
  unfold Queue.getSize
  rw [hh, ht]
  simp only
  rw [if_neg (by omega)]
  by_cases hw : h + items.length < q.size
  · rw [Nat.mod_eq_of_lt hw, if_pos (by omega)]
    push_cast; ring
  · have : (h + items.length) % q.size = h + items.length - q.size := by
      rw [Nat.mod_eq_sub_mod (by omega), Nat.mod_eq_of_lt (by omega)]
    rw [this, if_neg (by omega)]
    omega

/-- The full test. -/
theorem Ring.full {q : Queue} {items : List Msg} (r : Ring q items) {t : Nat}
    (ht : q.tail = some t) : q.isFull t = true ↔ items.length + 1 = q.size := by
  obtain ⟨h, hl, hh, ht', -⟩ := r.ex
  rw [ht'] at ht
  have h2 := r.two
  have hr := r.room
  have ht : t = (h + items.length) % q.size := (Option.some.inj ht).symm
  have htl : t < q.size := by rw [ht]; exact Nat.mod_lt _ (by omega)
  unfold Queue.isFull
  rw [r.next t htl, hh, beq_iff_eq, Option.some.injEq, ht, Nat.mod_add_mod]
  constructor
  · intro e
    by_contra hne
    have : (h + (items.length + 1)) % q.size = (h + 0) % q.size := by
      rw [Nat.add_zero h, Nat.mod_eq_of_lt hl]; exact e
    have := mod_inj (by omega) (by omega) this
    omega
  · intro e
    rw [Nat.add_assoc, e, Nat.add_mod_right, Nat.mod_eq_of_lt hl]

/-- Rings only depend on the block and the two pointers. -/
theorem Ring.congr {q q' : Queue} {items : List Msg} (r : Ring q items) (h1 : q'.size = q.size)
    (h2 : q'.node = q.node) (h3 : q'.next = q.next) (h4 : q'.tail = q.tail)
    (h5 : q'.head = q.head) : Ring q' items := by
  obtain ⟨a, b, c, d⟩ := r
  constructor
  · rw [h1]; exact a
  · rw [h1, h3]; exact b
  · rw [h1, h2, h4, h5]; exact c
  · rw [h1]; exact d

/-- Writing the node at the tail leaves the messages alone. -/
theorem Ring.write {q : Queue} {items : List Msg} (r : Ring q items) {t : Nat}
    (ht : q.tail = some t) (m : Msg) :
    Ring { q with
           node := Function.update q.node t m } items := by
  obtain ⟨h, hl, hh, ht', hn⟩ := r.ex
  have h2 := r.two
  have hr := r.room
  rw [ht'] at ht
  have ht : t = (h + items.length) % q.size := (Option.some.inj ht).symm
  refine ⟨r.two, r.next, ⟨h, hl, hh, ht', ?_⟩, r.room⟩
  intro i hi
  show Function.update q.node t m ((h + i) % q.size) = _
  rw [Function.update_of_ne, hn i hi]
  intro e
  rw [ht] at e
  have := mod_inj (by omega) hr e
  omega

/-- Moving the head of a queue that is not empty. -/
theorem Ring.pop {q : Queue} {m : Msg} {items : List Msg} (r : Ring q (m :: items)) :
    ∃ h, q.head = some h ∧ q.node h = m ∧
      Ring { q with
             head := q.next h } items := by
  obtain ⟨h, hl, hh, ht', hn⟩ := r.ex
  have h2 := r.two
  have hr := r.room
  refine ⟨h, hh, ?_, ?_⟩
  · have := hn 0 (by simp)
    rwa [Nat.add_zero, Nat.mod_eq_of_lt hl] at this
  · refine ⟨r.two, r.next, ⟨(h + 1) % q.size, Nat.mod_lt _ (by omega), r.next h hl, ?_, ?_⟩, ?_⟩
    · show q.tail = _
      rw [ht', Nat.mod_add_mod]
      congr 2
      simp only [List.length_cons]
      omega
    · intro i hi
      show q.node (((h + 1) % q.size + i) % q.size) = _
      rw [Nat.mod_add_mod]
      have := hn (i + 1) (by simp; omega)
      rw [show h + 1 + i = h + (i + 1) by omega, this]
      simp
    · simp only [List.length_cons] at hr
      show items.length < q.size
      omega

/-- Moving the tail past the node just written. -/
theorem Ring.push {q : Queue} {items : List Msg} (r : Ring q items) {t : Nat}
    (ht : q.tail = some t) {m : Msg} (hm : q.node t = m) (hroom : items.length + 1 < q.size) :
    Ring { q with
           tail := q.next t } (items ++ [m]) := by
  obtain ⟨h, hl, hh, ht', hn⟩ := r.ex
  have h2 := r.two
  have hr := r.room
  rw [ht'] at ht
  have ht : t = (h + items.length) % q.size := (Option.some.inj ht).symm
  have htl : t < q.size := by rw [ht]; exact Nat.mod_lt _ (by omega)
  refine ⟨r.two, r.next, ⟨h, hl, hh, ?_, ?_⟩, ?_⟩
  · show q.next t = _
    rw [r.next t htl, ht, Nat.mod_add_mod]
    simp only [List.length_append, List.length_cons, List.length_nil]
    rfl
  · intro i hi
    show q.node ((h + i) % q.size) = _
    by_cases hlt : i < items.length
    · rw [hn i hlt, List.getElem_append_left hlt]
    · have : i = items.length := by simp at hi; omega
      subst this
      rw [← ht, hm]
      simp
  · simp only [List.length_append, List.length_cons, List.length_nil]
    exact hroom

/-- What writing a message leaves behind: the ring with room for it, and the message in the node
at the tail. -/
structure Written (q q' : Queue) (items items' : List Msg) (m : Msg) : Prop where
  ring : Ring q' items'
  room : items'.length + 1 < q'.size
  node : ∃ t, q'.tail = some t ∧ q'.node t = m
  size : q'.size = q.size
  blocking : q'.blocking = q.blocking
  lockFail : q'.lockFail = q.lockFail
  case : (items.length + 1 < q.size ∧ items' = items ∧ q'.overflow = q.overflow ∧
      q'.head = q.head ∧ q'.tail = q.tail) ∨
    (items.length + 1 = q.size ∧ items' = items.tail ∧ q'.overflow = q.overflow + 1)

theorem insertWrite_eq (q : Queue) {t : Nat} (ht : q.tail = some t) (m : Msg) :
    q.insertWrite m.file m.line m.function m.type m.subsys m.text m.met m.timestamp =
      if Queue.isFull { q with
                        node := Function.update q.node t m } t then
        match q.head with
        | none => .ub
        | some h => .ok { q with
                          node := Function.update q.node t m
                          head := q.next h
                          overflow := q.overflow + 1 }
      else .ok { q with
                 node := Function.update q.node t m } := by
  obtain ⟨size, node, next, tail, head, b, l, o⟩ := q
  simp only at ht
  subst ht
  rfl

theorem Ring.insertWrite {q : Queue} {items : List Msg} (r : Ring q items) (m : Msg) :
    ∃ q' items', q.insertWrite m.file m.line m.function m.type m.subsys m.text m.met m.timestamp
      = .ok q' ∧ Written q q' items items' m := by
  obtain ⟨h, hl, hh, ht, hn⟩ := r.ex
  have h2 := r.two
  have hr := r.room
  rw [insertWrite_eq q ht m]
  set t := (h + items.length) % q.size with htd
  have rw' := r.write ht m
  by_cases hf : items.length + 1 = q.size
  · have hfull := (rw'.full (t := t) ht).mpr hf
    rw [if_pos hfull, hh]
    cases items with
    | nil => simp at hf; omega
    | cons x xs =>
      obtain ⟨h', hh', -, hp⟩ := rw'.pop
      have : h' = h := by
        have e : q.head = some h' := hh'
        rw [hh] at e; exact (Option.some.inj e).symm
      subst this
      refine ⟨_, xs, rfl, ?_⟩
      refine ⟨hp.congr rfl rfl rfl rfl rfl, ?_, ⟨t, ht, ?_⟩, rfl, rfl, rfl, Or.inr ⟨hf, rfl, rfl⟩⟩
      · simp only [List.length_cons] at hf
        show xs.length + 1 < q.size
        omega
      · show Function.update q.node t m t = m
        simp
  · have hnf : ¬ (Queue.isFull { q with node := Function.update q.node t m } t = true) := by
      rw [rw'.full (t := t) ht]; exact hf
    rw [if_neg hnf]
    refine ⟨_, items, rfl, rw', by show items.length + 1 < q.size; omega, ⟨t, ht, ?_⟩, rfl, rfl, rfl,
      Or.inl ⟨by omega, rfl, rfl, rfl, rfl⟩⟩
    show Function.update q.node t m t = m
    simp

theorem Written.advance {q q' : Queue} {items items' : List Msg} {m : Msg}
    (w : Written q q' items items' m) :
    ∃ q'', q'.insertAdvance = .ok q'' ∧ Ring q'' (items' ++ [m]) ∧ q''.size = q'.size ∧
      q''.blocking = q'.blocking ∧ q''.lockFail = q'.lockFail ∧ q''.overflow = q'.overflow := by
  obtain ⟨t, ht, hm⟩ := w.node
  refine ⟨_, ?_, w.ring.push ht hm w.room, rfl, rfl, rfl, rfl⟩
  unfold Queue.insertAdvance
  rw [ht]

theorem Ring.take {q : Queue} {m : Msg} {items : List Msg} (r : Ring q (m :: items)) :
    ∃ q', q.take = .ok (m, q') ∧ Ring q' items ∧ q'.size = q.size ∧ q'.blocking = q.blocking ∧
      q'.lockFail = q.lockFail ∧ q'.overflow = q.overflow := by
  obtain ⟨h, hh, hm, hr⟩ := r.pop
  refine ⟨_, ?_, hr, rfl, rfl, rfl, rfl⟩
  unfold Queue.take
  rw [hh]
  simp only [hm]

/-! ## Allocation -/

theorem newSize_ok {size : Int} (h : size < Queue.intMax) :
    Queue.newSize size = .ok (max (size + 1) 2).toNat := by
  unfold Queue.newSize
  rw [if_neg (by omega)]

theorem newSize_eq (size : Int) : (max (size + 1) 2).toNat = (max size 1).toNat + 1 := by omega

/-- The links of a fresh block. -/
theorem links {n : Nat} (hn : 2 ≤ n) (i : Nat) (hi : i < n) :
    Function.update (loop (fun i (next : Nat → Option Nat) => Function.update next i (some (i + 1)))
        (n - 1) (fun _ => none)) (n - 1) (some 0) i = some ((i + 1) % n) := by
  have key := loop_inv (f := fun i (next : Nat → Option Nat) => Function.update next i (some (i + 1)))
    (s := fun _ => none) (fun k (nx : Nat → Option Nat) => ∀ j, j < k → nx j = some (j + 1)) (n - 1)
    (fun j hj => by omega)
    (fun k hk nx ih j hj => by
      by_cases e : j = k
      · subst e; simp
      · rw [Function.update_of_ne e]; exact ih j (by omega))
  by_cases e : i = n - 1
  · subst e
    rw [Function.update_self, show n - 1 + 1 = n by omega, Nat.mod_self]
  · rw [Function.update_of_ne e, key i (by omega), Nat.mod_eq_of_lt (by omega)]

/-- A fresh block. -/
theorem alloc_fresh (q : Queue) (size : Int) (hs : size < Queue.intMax) (h0 : q.size = 0) :
    ∃ q', q.alloc size = .ok q' ∧ Ring q' [] ∧ q'.size = (max size 1).toNat + 1 ∧
      q'.blocking = q.blocking ∧ q'.lockFail = q.lockFail ∧ q'.overflow = q.overflow := by
  unfold Queue.alloc
  rw [newSize_ok hs, newSize_eq]
  simp only [Out.bind]
  have h2 : 2 ≤ (max size 1).toNat + 1 := by omega
  rw [if_neg (by omega)]
  refine ⟨_, rfl, ⟨h2, fun i hi => links h2 i hi, ⟨0, Nat.succ_pos _, rfl, ?_, ?_⟩, ?_⟩,
    rfl, rfl, rfl, rfl⟩
  · show some 0 = some ((0 + 0) % _)
    simp
  · intro i hi; simp at hi
  · show 0 < (max size 1).toNat + 1
    omega

/-- Adding messages to a queue one by one. -/
def pushAll (cap : Nat) : List Msg → List Msg × Nat → List Msg × Nat
  | [], p => p
  | m :: ms, p =>
    pushAll cap ms (if p.1.length < cap then (p.1 ++ [m], p.2) else (p.1.tail ++ [m], p.2 + 1))

theorem pushAll_eq (cap : Nat) (hc : 1 ≤ cap) (ms : List Msg) (xs : List Msg) (k : Nat)
    (hx : xs.length ≤ cap) :
    pushAll cap ms (xs, k) =
      ((xs ++ ms).drop ((xs ++ ms).length - cap), k + ((xs ++ ms).length - cap)) := by
  induction ms generalizing xs k with
  | nil =>
    rw [List.append_nil, Nat.sub_eq_zero_of_le hx]
    rfl
  | cons m ms ih =>
    unfold pushAll
    by_cases h : xs.length < cap
    · simp only [h, if_true]
      rw [ih _ _ (by simp; omega)]
      simp
    · simp only [h, if_false]
      rw [ih _ _ (by simp; omega)]
      have he : xs.length = cap := by omega
      cases xs with
      | nil => simp at he; omega
      | cons x xs =>
        simp only [List.length_cons] at he
        simp only [List.tail_cons, List.append_assoc, List.cons_append,
          List.length_cons, List.length_append]
        have e1 : xs.length + (ms.length + 1) + 1 - cap = (xs.length + (ms.length + 1) - cap) + 1 := by
          omega
        rw [e1, List.drop_succ_cons]
        refine Prod.ext ?_ ?_
        · simp
        · simp only [List.length_nil]
          omega

theorem insertNode_ring {q : Queue} {items : List Msg} (r : Ring q items) (m : Msg) :
    ∃ q' items', q.insertNode m = .ok q' ∧ Ring q' items' ∧ q'.size = q.size ∧
      q'.blocking = q.blocking ∧ q'.lockFail = q.lockFail ∧
      (items', q'.overflow) = (if items.length < q.size - 1 then (items ++ [m], q.overflow)
        else (items.tail ++ [m], q.overflow + 1)) := by
  obtain ⟨q1, i1, e1, w⟩ := r.insertWrite m
  obtain ⟨q2, e2, r2, h1, h2, h3, h4⟩ := w.advance
  refine ⟨q2, i1 ++ [m], ?_, r2, h1.trans w.size, h2.trans w.blocking, h3.trans w.lockFail, ?_⟩
  · unfold Queue.insertNode
    rw [e1]
    exact e2
  · rcases w.case with ⟨hl, hi, ho, -, -⟩ | ⟨hl, hi, ho⟩
    · rw [if_pos (by omega), hi, h4, ho]
    · rw [if_neg (by omega), hi, h4, ho]

theorem drain_ok (temp : Queue) (ms : List Msg) (fuel : Nat) (q : Queue) (items : List Msg)
    (rt : Ring temp ms) (hf : ms.length < fuel) (r : Ring q items) :
    ∃ q' , Queue.drain fuel temp q = .ok q' ∧
      ∃ items', Ring q' items' ∧ q'.size = q.size ∧ q'.blocking = q.blocking ∧
      q'.lockFail = q.lockFail ∧
      (items', q'.overflow) = pushAll (q.size - 1) ms (items, q.overflow) := by
  induction fuel generalizing temp ms q items with
  | zero => omega
  | succ fuel ih =>
    cases ms with
    | nil =>
      refine ⟨q, ?_, items, r, rfl, rfl, rfl, rfl⟩
      unfold Queue.drain Queue.remove
      have : temp.isEmpty = true := by
        unfold Queue.isEmpty
        rw [beq_iff_eq]
        exact rt.isEmpty_iff.mpr rfl
      rw [if_pos this]
      rfl
    | cons m ms =>
      obtain ⟨t', et, rt', -⟩ := rt.take
      obtain ⟨q1, i1, e1, r1, hs, hb, hl, ho⟩ := insertNode_ring r m
      obtain ⟨q2, e2, i2, r2, hs2, hb2, hl2, ho2⟩ := ih t' ms q1 i1 rt' (by simp at hf; omega) r1
      refine ⟨q2, ?_, i2, r2, hs2.trans hs, hb2.trans hb, hl2.trans hl, ?_⟩
      · unfold Queue.drain Queue.remove
        have : ¬ temp.isEmpty = true := by
          unfold Queue.isEmpty
          rw [beq_iff_eq, rt.isEmpty_iff]
          simp
        rw [if_neg this, et]
        simp only [Out.bind]
        rw [e1]
        exact e2
      · rw [ho2, hs, ho]
        rfl

/-- What `initialize` does to a queue that has a block. -/
theorem init_ring {q : Queue} {items : List Msg} (r : Ring q items) (size : Int)
    (hs : size < Queue.intMax) (b : Bool) :
    ∃ q', q.init size b = .ok q' ∧
      Ring q' (items.drop (items.length - (max size 1).toNat)) ∧
      q'.size = (max size 1).toNat + 1 ∧ q'.blocking = b ∧ q'.lockFail = q.lockFail ∧
      q'.overflow = q.overflow + (items.length - (max size 1).toNat) := by
  have h2 := r.two
  have hr := r.room
  unfold Queue.init Queue.realloc
  rw [if_neg (by show ¬ q.size = 0; omega), newSize_ok hs, newSize_eq]
  simp only [Out.bind]
  by_cases hsz : (max size 1).toNat + 1 = q.size
  · rw [if_pos (by exact hsz)]
    refine ⟨_, rfl, ?_, hsz.symm, rfl, rfl, ?_⟩
    · rw [Nat.sub_eq_zero_of_le (by omega), List.drop_zero]
      exact r.congr rfl rfl rfl rfl rfl
    · show q.overflow = _
      omega
  · rw [if_neg (by exact hsz)]
    obtain ⟨q1, e1, r1, hs1, hb1, hl1, ho1⟩ := alloc_fresh
      { q with blocking := b, size := 0, tail := none, head := none } size hs rfl
    rw [e1]
    simp only
    obtain ⟨q2, e2, i2, r2, hs2, hb2, hl2, ho2⟩ := drain_ok { q with blocking := b } items
      (q.size + 1) q1 [] (r.congr rfl rfl rfl rfl rfl) (by omega) r1
    have hc : q1.size - 1 = (max size 1).toNat := by omega
    rw [hc, pushAll_eq _ (by omega) _ _ _ (by simp), List.nil_append, Prod.mk.injEq] at ho2
    refine ⟨q2, e2, ?_, hs2.trans hs1, hb2.trans hb1, hl2.trans hl1, ?_⟩
    · rw [← ho2.1]; exact r2
    · rw [ho2.2, ho1]

theorem init_default (size : Int) (hs : size < Queue.intMax) (b : Bool) (q : Queue)
    (h0 : q.size = 0) :
    ∃ q', q.init size b = .ok q' ∧ Ring q' [] ∧
      q'.size = (max size 1).toNat + 1 ∧ q'.blocking = b ∧ q'.lockFail = q.lockFail ∧
      q'.overflow = q.overflow := by
  unfold Queue.init Queue.realloc
  rw [if_pos h0]
  exact alloc_fresh { q with blocking := b } size hs h0

end Gunns.Hs
