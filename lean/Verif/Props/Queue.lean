import Verif.Hs.QueueRun

/-!
# C43: the health-and-status message queue is a bounded first-in first-out queue

Any number of producers and consumers share a queue.  A producer may be let in, may wait for the
mutex, or may be turned away; the consumers take messages out.  Seen from outside, the queue should
behave like a list of at most `cap` messages: messages come out in the order in which they were
accepted, none comes out twice, none comes out that was not sent, and every accepted message is
received, still in the queue, or counted as overwritten.

This holds under every interleaving of any number of producers with **one** consumer
(`c43_fifo_partial`).  The full claim, for any number of consumers, is false of the code:
`removeMsg` tests for emptiness before it takes the mutex, so two consumers can both take the last
message (`c43_two_consumers_wrong`).  `TsHsStdMngr::shutdown` and `TsHsStdMngr::freeze` rely on it.
-/

namespace Gunns.Props

open Gunns.Hs Gunns.Hs.Spec

/-- What a user of the queue sees, against the record of what was sent and received. -/
structure QueueOk {n : Nat} (s : Sys n) (f : Fifo) : Prop where
  /-- the record is one of a bounded queue with contents `f.items` -/
  log : replay s.log = some f
  /-- `getCapacity` -/
  capacity : s.q.getCapacity = f.cap
  /-- there is room for a message -/
  room : 1 ≤ f.cap
  /-- the queue never holds more than it may -/
  bounded : f.items.length ≤ f.cap
  /-- `getLockFailures` -/
  lockFailures : s.q.lockFail = f.skipped
  /-- `getOverflows`, `getSize` and `isEmpty`, where no producer is at work -/
  overflows : s.lock = .free → s.q.overflow = f.lost
  size : s.lock = .free → s.q.getSize = f.items.length
  empty : s.lock = .free → (s.q.isEmpty = true ↔ f.items = [])

theorem queueOk_of_inv {s : Sys 1} {f : Fifo} (h : Inv s f) : QueueOk s f := by
  obtain ⟨a, b, c, d, k, g⟩ := h
  have hr : 1 ≤ f.cap ∧ f.items.length ≤ f.cap := by
    generalize s.lock = l at d
    cases d with
    | free r _ => have := r.two; have := r.room; omega
    | write m r _ => have := r.two; have := r.room; omega
    | consumer c r _ => have := r.two; have := r.room; omega
    | advance m q0 i hs ho w _ =>
      have := w.ring.two
      rcases w.case with ⟨h1, -⟩ | ⟨h1, -⟩ <;> omega
  refine ⟨a, ?_, hr.1, hr.2, c, ?_, ?_, ?_⟩
  · unfold Queue.getCapacity
    rw [if_neg (by omega), b]
    rfl
  · intro hl
    rw [hl] at d
    cases d with
    | free _ o => exact o
  · intro hl
    rw [hl] at d
    cases d with
    | free r _ => exact r.getSize
  · intro hl
    rw [hl] at d
    cases d with
    | free r _ =>
      unfold Queue.isEmpty
      rw [beq_iff_eq]
      exact r.isEmpty_iff

/-- **C43, partial: one consumer.**  After `initialize`, under every interleaving of the steps of
any number of producers, of one consumer, of `setBlocking` and of later calls of `initialize`, the
queue never reads through a null pointer and never hangs, and what it has done is what a bounded
first-in first-out queue does.  The one other outcome is a later `initialize` overlapping another
call.  Missing for the full claim: more than one consumer, for which it is false. -/
theorem c43_fifo_partial (size : Int) (hs : size < Queue.intMax) (b : Bool) (es : List (Ev 1))
    (he : ∀ e ∈ es, ∀ sz bl, e = .init sz bl → sz < Queue.intMax) :
    (∃ s f, Sys.run (.init size b :: es) {} = .ok s ∧ QueueOk s f) ∨
      (Sys.run (.init size b :: es) {} = .race ∧ ∃ sz bl, Ev.init sz bl ∈ es) := by
  obtain ⟨s0, f0, e0, h0⟩ := inv_init size hs b
  have hr : Sys.run (.init size b :: es) {} = s0.run es := by
    show (Sys.step _ _).bind _ = _
    rw [e0]; rfl
  rw [hr]
  have hf : ∀ e ∈ es, e.Fits := by
    intro e hm
    cases e with
    | init sz bl => exact he _ hm sz bl rfl
    | _ => trivial
  rcases h0.run es hf with ⟨s, f, e1, h1⟩ | h1
  · exact Or.inl ⟨s, f, e1, queueOk_of_inv h1⟩
  · exact Or.inr h1

/-- **C43: order and accounting.**  In every such run the messages received, followed by those still
held, are among the messages accepted and in their order; and the number accepted is the number
received plus the number held plus the number counted as overwritten. -/
theorem c43_accounting (size : Int) (hs : size < Queue.intMax) (b : Bool) (es : List (Ev 1))
    (he : ∀ e ∈ es, ∀ sz bl, e = .init sz bl → sz < Queue.intMax) (s : Sys 1)
    (h : Sys.run (.init size b :: es) {} = .ok s) (hl : s.lock = .free) :
    ∃ held : List Msg, (s.q.getSize = held.length) ∧
      (got s.log ++ held).Sublist (sent s.log) ∧
      (sent s.log).length = (got s.log).length + held.length + s.q.overflow ∧
      skips s.log = s.q.lockFail := by
  rcases c43_fifo_partial size hs b es he with ⟨s', f, e1, h1⟩ | ⟨e1, -⟩
  · rw [h] at e1
    cases e1
    obtain ⟨a1, a2, a3⟩ := replay_counts _ _ h1.log
    exact ⟨f.items, h1.size hl, a1, by rw [h1.overflows hl]; exact a2,
      a3.trans h1.lockFailures.symm⟩
  · rw [h] at e1; cases e1

/-- The whole of `removeMsg` by one consumer, without interruption. -/
def removeAlone (tailFirst : Bool) : List (Ev 1) :=
  [if tailFirst then .readTail 0 else .readHead 0, .compare 0, .lock 0, .take 0]

/-- **C43: a removal that nothing interrupts** returns the oldest message, or false if and only if
the queue is empty. -/
theorem c43_remove_alone (size : Int) (hs : size < Queue.intMax) (b : Bool) (es : List (Ev 1))
    (he : ∀ e ∈ es, ∀ sz bl, e = .init sz bl → sz < Queue.intMax) (s : Sys 1)
    (h : Sys.run (.init size b :: es) {} = .ok s) (hl : s.lock = .free) (hc : s.cons 0 = .idle)
    (tailFirst : Bool) :
    ∃ s' f f', QueueOk s f ∧ s.run (removeAlone tailFirst) = .ok s' ∧ QueueOk s' f' ∧
      s'.lock = .free ∧ s'.cons 0 = .idle ∧
      (f.items = [] ∧ s'.log = s.log ++ [.none 0] ∨
       ∃ m, f.items = m :: f'.items ∧ s'.log = s.log ++ [.got 0 m]) := by
  have hf : ∀ e ∈ es, e.Fits := by
    intro e hm
    cases e with
    | init sz bl => exact he _ hm sz bl rfl
    | _ => trivial
  obtain ⟨s0, f0, e0, h0⟩ := inv_init size hs b
  have hr : Sys.run (.init size b :: es) {} = s0.run es := by
    show (Sys.step _ _).bind _ = _
    rw [e0]; rfl
  rw [hr] at h
  rcases h0.run es hf with ⟨s1, f, e1, h1⟩ | ⟨e1, -⟩
  swap
  · rw [h] at e1; cases e1
  rw [h] at e1
  cases e1
  have hfit : ∀ e ∈ removeAlone tailFirst, e.Fits := by
    cases tailFirst <;> simp [removeAlone, Ev.Fits]
  have hhold := h1.holds
  rw [hl] at hhold
  cases hhold with
  | free r o =>
    rcases h1.run _ hfit with ⟨s', f', e2, h2⟩ | ⟨-, sz, bl, hm⟩
    swap
    · cases tailFirst <;> simp [removeAlone] at hm
    refine ⟨s', f, f', queueOk_of_inv h1, e2, queueOk_of_inv h2, ?_⟩
    cases hi : f.items with
    | nil =>
      have hp : s.q.head = s.q.tail := r.isEmpty_iff.mpr hi
      have hrun : s.run (removeAlone tailFirst) =
          .ok { (s.setCons 0 (if tailFirst then .sawTail s.q.tail else .sawHead s.q.head)).setCons 0
                  .idle with
                log := s.log ++ [.none 0] } := by
        cases tailFirst <;>
          simp [removeAlone, Sys.run, Sys.step, Out.bind, hc, hp, Sys.setCons]
      rw [hrun] at e2
      cases e2
      exact ⟨hl, by simp [Sys.setCons], Or.inl ⟨rfl, rfl⟩⟩
    | cons m ms =>
      have hp : s.q.head ≠ s.q.tail := by
        intro e
        have := r.isEmpty_iff.mp e
        rw [hi] at this
        cases this
      rw [hi] at r
      obtain ⟨q', et, rt, -⟩ := r.take
      have hrun : ∃ s'', s.run (removeAlone tailFirst) = .ok s'' ∧ s''.lock = .free ∧
          s''.cons 0 = .idle ∧ s''.log = s.log ++ [.got 0 m] := by
        cases tailFirst <;>
          simp [removeAlone, Sys.run, Sys.step, Out.bind, hc, hp, hl, Sys.setCons, et]
      obtain ⟨s'', e3, q1, q2, q3⟩ := hrun
      rw [e3] at e2
      cases e2
      refine ⟨q1, q2, Or.inr ⟨m, ?_, q3⟩⟩
      have hlog := h2.log
      rw [q3, replay_append, h1.log] at hlog
      simp only [Option.bind, act, hi, List.head?_cons, if_true, Option.some.injEq] at hlog
      rw [← hlog]
      rfl

/-- A producer, from entering `insertMsg` to leaving it. -/
def insertAll {n : Nat} (m : Msg) : List (Ev n) := [.enter m, .write, .advance]

/-- The theorems above are about real runs: capacity 2, three messages in, one out. -/
example : ∃ s : Sys 1, Sys.run (.init 2 true :: insertAll { text := "a" } ++
      insertAll { text := "b" } ++ insertAll { text := "c" } ++ removeAlone false) {} = .ok s ∧
    s.log = [.resized 2, .sent { text := "a" }, .sent { text := "b" }, .sent { text := "c" },
      .got 0 { text := "b" }] ∧ s.q.overflow = 1 ∧ s.q.getSize = 1 := by
  refine ⟨_, rfl, ?_, ?_, ?_⟩ <;> decide +kernel

/-- **C43: a queue that was never initialized** has no block: the first message inserted is written
through a null pointer.  (Removing from it is harmless.) -/
theorem c43_uninitialized {n : Nat} (m : Msg) (c : Fin n) :
    Sys.run (insertAll m) ({} : Sys n) = .ub ∧
      ∃ s, Sys.run [.readHead c, .compare c] ({} : Sys n) = .ok s ∧ s.log = [.none c] := by
  constructor
  · simp [insertAll, Sys.run, Sys.step, Out.bind, Queue.insertWrite]
  · simp [Sys.run, Sys.step, Out.bind, Sys.setCons]

/-- **C43: a requested size that is the largest `int`** overflows. -/
theorem c43_size_overflow {n : Nat} (b : Bool) :
    Sys.run [.init Queue.intMax b] ({} : Sys n) = .ub := by
  simp [Sys.run, Sys.step, Out.bind, Queue.init, Queue.realloc, Queue.alloc, Queue.newSize]

/-- The state of a fresh queue, node by node. -/
theorem init_default_eq (size : Int) (hs : size < Queue.intMax) (b : Bool) :
    ∃ q', ctorDefault.init size b = .ok q' ∧ q'.size = (max size 1).toNat + 1 ∧
      q'.head = some 0 ∧ q'.tail = some 0 ∧ (∀ i, q'.node i = {}) ∧
      ∀ i, i < q'.size → q'.next i = some ((i + 1) % q'.size) := by
  unfold Queue.init Queue.realloc Queue.alloc
  rw [newSize_ok hs, newSize_eq]
  simp only [Out.bind]
  have h2 : 2 ≤ (max size 1).toNat + 1 := by omega
  rw [if_pos (by rfl), if_neg (by show ¬ _ = 0; omega)]
  exact ⟨_, rfl, rfl, rfl, rfl, fun _ => rfl, fun i hi => links h2 i hi⟩

/-- Two consumers that both find one message. -/
def twoConsumers (size : Int) (b : Bool) (m : Msg) : List (Ev 2) :=
  .init size b :: insertAll m ++
    [.readHead 0, .compare 0, .readHead 1, .compare 1, .lock 0, .take 0, .lock 1, .take 1]

/-- **C43, the full claim is false: two consumers.**  For every capacity: send one message and let
two consumers both see that the queue is not empty before either takes the mutex.  The second
receives a blank message nobody sent, and from then on the queue, which is empty, reports that it is
full. -/
theorem c43_two_consumers_wrong (size : Int) (hs : size < Queue.intMax) (b : Bool) (m : Msg) :
    ∃ s, Sys.run (twoConsumers size b m) {} = .ok s ∧
      sent s.log = [m] ∧ got s.log = [m, {}] ∧ replay s.log = none ∧
      s.q.isEmpty = false ∧ s.q.getSize = s.q.getCapacity ∧ s.q.getCapacity = (max size 1).toNat := by
  obtain ⟨q, e, hsz, hh, ht, hn, hx⟩ := init_default_eq size hs b
  have h2 : 2 ≤ q.size := by omega
  have x0 : q.next 0 = some 1 := by
    rw [hx 0 (by omega), Nat.mod_eq_of_lt (by omega)]
  have x1 : q.next 1 = some (2 % q.size) := hx 1 (by omega)
  have n1 : q.node 1 = {} := hn 1
  obtain ⟨sz, nd, nx, tl, hd, bl, lf, ov⟩ := q
  simp only at hsz hh ht hn hx h2 x0 x1 n1
  subst hh ht
  have e' : Queue.init {} size b = .ok ⟨sz, nd, nx, some 0, some 0, bl, lf, ov⟩ := e
  have hrun : ∃ s, Sys.run (twoConsumers size b m) {} = .ok s ∧ s.q.head = some (2 % sz) ∧
      s.q.tail = some 1 ∧ s.q.size = sz ∧
      s.log = [.resized size, .sent m, .got 0 m, .got 1 {}] := by
    simp [twoConsumers, insertAll, Sys.run, Sys.step, Out.bind, Sys.setCons, e', Queue.insertWrite,
      Queue.isFull, x0, x1, n1, Queue.insertAdvance, Queue.take, Function.update]
  obtain ⟨s, e1, h1, h3, h4, h5⟩ := hrun
  refine ⟨s, e1, ?_, ?_, ?_, ?_, ?_, ?_⟩
  · rw [h5]; rfl
  · rw [h5]; rfl
  · rw [h5]
    have : ¬ (max size 1).toNat = 0 := by omega
    simp [replay, act, this]
  · unfold Queue.isEmpty
    rw [h1, h3]
    have : 2 % sz ≠ 1 := by
      by_cases h : sz = 2
      · subst h; decide
      · rw [Nat.mod_eq_of_lt (by omega)]; decide
    simpa using this
  · unfold Queue.getSize Queue.getCapacity
    rw [h1, h3, h4]
    simp only
    have hz : ¬ sz = 0 := by omega
    rw [if_neg hz, if_neg hz]
    by_cases h : sz = 2
    · subst h; decide
    · rw [Nat.mod_eq_of_lt (by omega), if_neg (by omega)]
      omega
  · unfold Queue.getCapacity
    rw [h4, if_neg (by omega)]
    omega

/-- **C43: `removeMsg` may return false although the queue is never empty during the call.**  The
capacity is 1 and holds a message; the consumer reads the head, a producer overwrites the message,
and the consumer then reads a tail that has come round to the head it read. -/
theorem c43_false_not_empty :
    ∃ s : Sys 1, Sys.run ([.init 1 false] ++ insertAll { text := "a" } ++ [.readHead 0] ++
        insertAll { text := "b" } ++ [.compare 0]) {} = .ok s ∧
      s.log = [.resized 1, .sent { text := "a" }, .sent { text := "b" }, .none 0] ∧
      s.q.getSize = 1 := by
  refine ⟨_, rfl, ?_, ?_⟩ <;> decide +kernel

end Gunns.Props
