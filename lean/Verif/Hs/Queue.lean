import Verif.Base.Loop
import Mathlib.Data.Int.Order.Basic
import Mathlib.Data.Fintype.Basic

/-!
# The health-and-status message queue

Model of `ms-utils/simulation/hs/TsHsMsgQueue.{hh,cpp}`: a ring of nodes linked by `mNext`
pointers, a mutex around insertion and removal, and an emptiness test made outside the mutex.

A pointer into the current block of nodes is `some i`, the null pointer is `none`.
-/

namespace Gunns.Hs

/-- The message fields of one node, `TsHsMsgQueue.hh:54-61`.  `TS_TIMER_TYPE` is represented by its
seconds; the queue only copies it.  The defaults are those of the node constructor,
`TsHsMsgQueue.cpp:42-53` (`TS_HS_DEBUG` is 0, `TS_HS_UNKNOWN` is "UNKNOWN"). -/
structure Msg where
  file : String := ""
  line : Int := 0
  function : String := ""
  type : Nat := 0
  subsys : String := "UNKNOWN"
  text : String := ""
  met : Int := 0
  timestamp : Nat := 0
deriving DecidableEq, Repr

/-- How a call ends.  `ub` is a null pointer read or a signed overflow, `stuck` is a loop that does
not end, and `race` is a call that overlaps another one where the code has no protection. -/
inductive Out (α : Type _) where
  | ok (a : α)
  | ub
  | stuck
  | race
deriving DecidableEq, Repr

/-- Do one thing after another. -/
def Out.bind {α β : Type _} : Out α → (α → Out β) → Out β
  | .ok a, f => f a
  | .ub, _ => .ub
  | .stuck, _ => .stuck
  | .race, _ => .race

/-- The members of `TsHsMsgQueue`, `TsHsMsgQueue.hh:146-156`.  `node` and `next` are the message
fields and the `mNext` members of the nodes of the block at `mAllocation`.  The counters are
natural numbers: their overflow after 2^31 losses is not modelled. -/
structure Queue where
  size : Nat := 0
  node : Nat → Msg := fun _ => {}
  next : Nat → Option Nat := fun _ => none
  tail : Option Nat := none
  head : Option Nat := none
  blocking : Bool := false
  lockFail : Nat := 0
  overflow : Nat := 0

namespace Queue

/-- `isEmpty`, `TsHsMsgQueue.hh:115`, read at one instant. -/
def isEmpty (q : Queue) : Bool := q.head == q.tail

/-- `isFull`, `TsHsMsgQueue.hh:118`, for a tail pointer that is not null. -/
def isFull (q : Queue) (t : Nat) : Bool := q.next t == q.head

/-- `getCapacity`, `TsHsMsgQueue.cpp:101-108`. -/
def getCapacity (q : Queue) : Nat :=
  if q.size = 0 then 0 else q.size - 1

/-- `getSize`, `TsHsMsgQueue.cpp:113-122`. -/
def getSize (q : Queue) : Int :=
  match q.head, q.tail with
  | some h, some t =>
    if q.size = 0 then 0
    else if h ≤ t then (t : Int) - h
    else (q.size : Int) - ((h : Int) - t)
  | _, _ => 0

/-- The part of `insertMsg` that writes the node and moves the head of a full queue,
`TsHsMsgQueue.cpp:176-191`. -/
def insertWrite (q : Queue) (file : String) (line : Int) (function : String) (type : Nat)
    (subsys text : String) (met : Int) (timestamp : Nat) : Out Queue :=
  match q.tail with
  | none => .ub
  | some t =>
    let q := { q with
               node := Function.update q.node t
                 { file := file, line := line, function := function, type := type,
                   subsys := subsys, text := text, met := met, timestamp := timestamp } }
    if q.isFull t then
      match q.head with
      | none => .ub
      | some h => .ok { q with
                        head := q.next h
                        overflow := q.overflow + 1 }
    else .ok q

/-- The part of `insertMsg` that moves the tail, `TsHsMsgQueue.cpp:196`. -/
def insertAdvance (q : Queue) : Out Queue :=
  match q.tail with
  | none => .ub
  | some t => .ok { q with tail := q.next t }

/-- `insertMsg(TsHsMsgQueueNode&)` where the mutex is free, `TsHsMsgQueue.cpp:209-212` with
`:152-199`. -/
def insertNode (q : Queue) (m : Msg) : Out Queue :=
  (q.insertWrite m.file m.line m.function m.type m.subsys m.text m.met m.timestamp).bind
    insertAdvance

/-- The part of `removeMsg` under the mutex, `TsHsMsgQueue.cpp:231-242`. -/
def take (q : Queue) : Out (Msg × Queue) :=
  match q.head with
  | none => .ub
  | some h =>
    .ok ({ file := (q.node h).file, line := (q.node h).line, function := (q.node h).function,
           type := (q.node h).type, subsys := (q.node h).subsys, text := (q.node h).text,
           met := (q.node h).met, timestamp := (q.node h).timestamp },
      { q with head := q.next h })

/-- `removeMsg` of a queue no other thread uses, `TsHsMsgQueue.cpp:223-247`. -/
def remove (q : Queue) : Out (Option Msg × Queue) :=
  if q.isEmpty then .ok (none, q)
  else (q.take).bind fun r => .ok (some r.1, r.2)

/-- The largest `int`. -/
def intMax : Int := 2147483647

/-- The internal size for a requested size, `TsHsMsgQueue.cpp:258` and `:298`: `size+1` overflows
for the largest `int`. -/
def newSize (size : Int) : Out Nat :=
  if size = intMax then .ub else .ok (max (size + 1) 2).toNat

/-- `allocQueue`, `TsHsMsgQueue.cpp:255-280`.  Memory is not exhausted. -/
def alloc (q : Queue) (size : Int) : Out Queue :=
  (newSize size).bind fun n =>
    if n = q.size then .ok q
    else
      let next := loop (fun i (next : Nat → Option Nat) => Function.update next i (some (i + 1)))
        (n - 1) (fun _ => none)
      .ok { q with
            size := n
            node := fun _ => {}
            next := Function.update next (n - 1) (some 0)
            tail := some 0
            head := some 0 }

/-- The `while` loop of `reallocQueue`, `TsHsMsgQueue.cpp:321-324`, cut off after `fuel` rounds. -/
def drain : Nat → Queue → Queue → Out Queue
  | 0, _, _ => .stuck
  | fuel + 1, temp, q =>
    (temp.remove).bind fun r =>
      match r.1 with
      | none => .ok q
      | some m => (q.insertNode m).bind fun q' => drain fuel r.2 q'

/-- `reallocQueue`, `TsHsMsgQueue.cpp:288-325`, on a queue no other thread uses: `temp_queue` is
the shallow copy, and its destructor frees the old block. -/
def realloc (q : Queue) (size : Int) : Out Queue :=
  if q.size = 0 then q.alloc size
  else
    (newSize size).bind fun n =>
      if n = q.size then .ok q
      else
        let temp := q
        let q := { q with
                   size := 0
                   tail := none
                   head := none }
        (q.alloc size).bind fun q => drain (temp.size + 1) temp q

/-- `initialize`, `TsHsMsgQueue.cpp:131-135`. -/
def init (q : Queue) (size : Int) (blocking : Bool) : Out Queue :=
  ({ q with
     blocking := blocking }).realloc size

end Queue

/-- The default constructor, `TsHsMsgQueue.cpp:58-68`. -/
def ctorDefault : Queue := {}

/-- The constructor with a size, `TsHsMsgQueue.cpp:76-88`. -/
def ctor (size : Int) (blocking : Bool) : Out Queue :=
  ({ blocking := blocking } : Queue).alloc size

/-! ## Threads -/

/-- Who holds the mutex: a producer about to write its message, a producer about to move the tail,
or a consumer. -/
inductive Lock (n : Nat) where
  | free
  | write (m : Msg)
  | advance (m : Msg)
  | consumer (c : Fin n)
deriving DecidableEq

/-- Where a consumer is in `removeMsg`: not in it, between the two unprotected pointer reads of
`isEmpty` (C++ leaves their order open), past the test and waiting for the mutex, or holding it. -/
inductive Consumer where
  | idle
  | sawHead (p : Option Nat)
  | sawTail (p : Option Nat)
  | waiting
  | holding
deriving DecidableEq

/-- What can be seen from outside: a message accepted, a message skipped because the mutex was
taken, a message received, `removeMsg` returning false, and `initialize`. -/
inductive Act (n : Nat) where
  | sent (m : Msg)
  | skipped (m : Msg)
  | got (c : Fin n) (m : Msg)
  | none (c : Fin n)
  | resized (size : Int)
deriving DecidableEq

/-- A queue with any number of producers and `n` consumers, and the record of what happened. -/
structure Sys (n : Nat) where
  q : Queue := {}
  lock : Lock n := .free
  cons : Fin n → Consumer := fun _ => .idle
  log : List (Act n) := []

/-- One thread takes one step.  A thread that cannot go on stays where it is. -/
inductive Ev (n : Nat) where
  | enter (m : Msg)
  | write
  | advance
  | readHead (c : Fin n)
  | readTail (c : Fin n)
  | compare (c : Fin n)
  | lock (c : Fin n)
  | take (c : Fin n)
  | setBlocking (b : Bool)
  | init (size : Int) (blocking : Bool)

namespace Sys

variable {n : Nat}

/-- Put a consumer in a state. -/
def setCons (s : Sys n) (c : Fin n) (x : Consumer) : Sys n :=
  { s with
    cons := Function.update s.cons c x }

/-- One step, `TsHsMsgQueue.cpp:162-198`, `:226-246` and `TsHsMsgQueue.hh:115,127`.  Reads and
writes of one pointer are atomic.  `initialize` takes no lock: overlapping another call, it is
reported as `race`. -/
def step (e : Ev n) (s : Sys n) : Out (Sys n) :=
  match e with
  | .enter m =>
    if s.lock = .free then .ok { s with
                                 lock := .write m }
    else if s.q.blocking then .ok s
    else .ok { s with
               q := { s.q with
                      lockFail := s.q.lockFail + 1 }
               log := s.log ++ [.skipped m] }
  | .write =>
    match s.lock with
    | .write m =>
      (s.q.insertWrite m.file m.line m.function m.type m.subsys m.text m.met m.timestamp).bind
        fun q => .ok { s with
                       q := q
                       lock := .advance m }
    | _ => .ok s
  | .advance =>
    match s.lock with
    | .advance m =>
      s.q.insertAdvance.bind fun q => .ok { s with
                                            q := q
                                            lock := .free
                                            log := s.log ++ [.sent m] }
    | _ => .ok s
  | .readHead c =>
    match s.cons c with
    | .idle => .ok (s.setCons c (.sawHead s.q.head))
    | _ => .ok s
  | .readTail c =>
    match s.cons c with
    | .idle => .ok (s.setCons c (.sawTail s.q.tail))
    | _ => .ok s
  | .compare c =>
    match s.cons c with
    | .sawHead p =>
      if p = s.q.tail then .ok { s.setCons c .idle with
                                 log := s.log ++ [.none c] }
      else .ok (s.setCons c .waiting)
    | .sawTail p =>
      if s.q.head = p then .ok { s.setCons c .idle with
                                 log := s.log ++ [.none c] }
      else .ok (s.setCons c .waiting)
    | _ => .ok s
  | .lock c =>
    if s.cons c = .waiting ∧ s.lock = .free then
      .ok { s.setCons c .holding with
            lock := .consumer c }
    else .ok s
  | .take c =>
    if s.cons c = .holding then
      (s.q.take).bind fun r => .ok { s.setCons c .idle with
                                     q := r.2
                                     lock := .free
                                     log := s.log ++ [.got c r.1] }
    else .ok s
  | .setBlocking b => .ok { s with
                            q := { s.q with
                                   blocking := b } }
  | .init size blocking =>
    if s.lock = .free ∧ ∀ c, s.cons c = .idle then
      (s.q.init size blocking).bind fun q => .ok { s with
                                                   q := q
                                                   log := s.log ++ [.resized size] }
    else .race

/-- Any interleaving of the threads. -/
def run : List (Ev n) → Sys n → Out (Sys n)
  | [], s => .ok s
  | e :: es, s => (s.step e).bind (run es)

end Sys

end Gunns.Hs
