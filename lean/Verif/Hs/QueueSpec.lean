import Verif.Hs.Queue

/-!
# What a bounded first-in first-out queue does

The specification knows nothing of nodes, pointers or the mutex.
-/

namespace Gunns.Hs.Spec

/-- A queue that holds at most `cap` messages, oldest first. -/
structure Fifo where
  cap : Nat := 0
  items : List Msg := []
  lost : Nat := 0
  skipped : Nat := 0
deriving DecidableEq

/-- What an observed action does to the queue.  A queue without room accepts nothing, and
receiving is only possible of the oldest message. -/
def act {n : Nat} (f : Fifo) : Act n → Option Fifo
  | .sent m =>
    if f.cap = 0 then none
    else if f.items.length < f.cap then some { f with
                                          items := f.items ++ [m] }
    else some { f with
                items := f.items.tail ++ [m]
                lost := f.lost + 1 }
  | .skipped _ => some { f with
                         skipped := f.skipped + 1 }
  | .got _ m =>
    if f.items.head? = some m then some { f with
                                          items := f.items.tail }
    else none
  | .none _ => some f
  | .resized size =>
    some { f with
           cap := (max size 1).toNat
           items := f.items.drop (f.items.length - (max size 1).toNat)
           lost := f.lost + (f.items.length - (max size 1).toNat) }

/-- Replay a record of actions; `none` if some message was received that a queue would not have
given. -/
def replay {n : Nat} (log : List (Act n)) : Option Fifo :=
  log.foldl (fun f a => f.bind (act · a)) (some {})

/-- The messages accepted, in order. -/
def sent {n : Nat} (log : List (Act n)) : List Msg :=
  log.filterMap fun a => match a with
    | .sent m => some m
    | _ => none

/-- The messages received, in order. -/
def got {n : Nat} (log : List (Act n)) : List Msg :=
  log.filterMap fun a => match a with
    | .got _ m => some m
    | _ => none

/-- The number of messages skipped. -/
def skips {n : Nat} (log : List (Act n)) : Nat :=
  (log.filter fun a => match a with
    | .skipped _ => true
    | _ => false).length

end Gunns.Hs.Spec
