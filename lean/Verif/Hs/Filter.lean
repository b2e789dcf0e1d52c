import Verif.Hs.Queue
import Mathlib.Algebra.Order.Field.Basic

/-!
# The health-and-status message filter

Model of `ms-utils/simulation/hs/TsHsMsgFilter.cpp` and `TsHsMsgStdFilter.cpp`.

`std::map` is a list of entries in increasing order of the key, `std::deque` is a list with the
front first.  Time stamps are elements of an ordered field.
-/

namespace Gunns.Hs

variable {K : Type _} [Field K] [LinearOrder K] [IsStrictOrderedRing K]

/-- The settings, `TsHsMsgFilter.cpp:46-57`.  `types` is `mFilteredTypes`, a 32 bit `int`. -/
structure FilterCfg where
  enabled : Bool := true
  types : BitVec 32 := 0
  interval : Int := 60
  count : Int := 2
  history : Int := 25
  blocking : Bool := false

namespace FilterCfg

/-- `setTypeFilter`, `TsHsMsgFilter.cpp:85-97`.  A type is one of the five of
`TS_hs_msg_types.h:23-27`. -/
def setTypeFilter (c : FilterCfg) (type : Fin 5) (on : Bool) : FilterCfg :=
  if on then { c with
               types := c.types ||| (1#32 <<< type.val) }
  else { c with
         types := c.types &&& ~~~ (1#32 <<< type.val) }

/-- `isTypeFiltered`, `TsHsMsgFilter.cpp:106-110`. -/
def isTypeFiltered (c : FilterCfg) (type : Fin 5) : Bool :=
  (c.types &&& (1#32 <<< type.val)) != 0

/-- `setInterval`, `TsHsMsgFilter.cpp:119-125`. -/
def setInterval (c : FilterCfg) (sec : Int) : FilterCfg :=
  if sec > 0 then { c with
                    interval := sec } else c

/-- `setCount`, `TsHsMsgFilter.cpp:133-139`. -/
def setCount (c : FilterCfg) (count : Int) : FilterCfg :=
  if count > 0 then { c with
                      count := count } else c

/-- `setHistory`, `TsHsMsgFilter.cpp:147-153`. -/
def setHistory (c : FilterCfg) (size : Int) : FilterCfg :=
  if size > 0 then { c with
                     history := size } else c

/-- `setBlocking`, `TsHsMsgFilter.cpp:160-163`. -/
def setBlocking (c : FilterCfg) (b : Bool) : FilterCfg :=
  { c with
    blocking := b }

/-- `setEnabled`, `TsHsMsgFilter.cpp:170-173`. -/
def setEnabled (c : FilterCfg) (b : Bool) : FilterCfg :=
  { c with
    enabled := b }

end FilterCfg

/-! ## The message map -/

/-- `TsHsMessageMap`, `TsHsMsgStdFilter.hh:117-118`: for each message the times it was displayed. -/
abbrev MsgMap (K : Type _) := List (String × List K)

namespace MsgMap

/-- `std::map::find`. -/
def find (k : String) : MsgMap K → Option (List K)
  | [] => none
  | e :: m => if e.1 = k then some e.2 else find k m

/-- Write through the iterator found. -/
def set (k : String) (v : List K) : MsgMap K → MsgMap K
  | [] => []
  | e :: m => if e.1 = k then (k, v) :: m else e :: set k v m

/-- `std::map::insert` of a key that is not there. -/
def insert (k : String) (v : List K) : MsgMap K → MsgMap K
  | [] => [(k, v)]
  | e :: m => if k < e.1 then (k, v) :: e :: m else e :: insert k v m

/-- `std::map::erase` of the entry with this key. -/
def erase (k : String) : MsgMap K → MsgMap K
  | [] => []
  | e :: m => if e.1 = k then m else e :: erase k m

end MsgMap

/-- `std::deque::back`, undefined for an empty deque. -/
def back (v : List K) : Out K :=
  match v.getLast? with
  | some t => .ok t
  | none => .ub

/-- `purgeTimes`, `TsHsMsgStdFilter.cpp:80-86`. -/
def purgeTimes (times : List K) (start : K) : List K := times.dropWhile (· < start)

/-- The loop of `purgeMessages`, `TsHsMsgStdFilter.cpp:100-106`. -/
def scanOldest : String × List K → List (String × List K) → Out (String × List K)
  | oldest, [] => .ok oldest
  | oldest, e :: es =>
    (back e.2).bind fun a => (back oldest.2).bind fun b =>
      scanOldest (if a < b then e else oldest) es

/-- `purgeMessages`, `TsHsMsgStdFilter.cpp:91-109`.  `iter = ++oldest` moves `oldest` past the first
entry; with one entry it is `end()`, and erasing that is undefined. -/
def purgeMessages (m : MsgMap K) : Out (MsgMap K) :=
  match m with
  | [] => .ok m
  | [_] => .ub
  | _ :: y :: rest => (scanOldest y (y :: rest)).bind fun o => .ok (m.erase o.1)

/-- The loop that makes room, `TsHsMsgStdFilter.cpp:189-192`, cut off after `fuel` rounds. -/
def makeRoom (history : Int) : Nat → MsgMap K → Out (MsgMap K)
  | 0, _ => .stuck
  | fuel + 1, m =>
    if (m.length : Int) ≥ history then (purgeMessages m).bind (makeRoom history fuel)
    else .ok m

/-! ## The filter -/

/-- What is offered to the filter. -/
structure Offer (K : Type _) where
  time : K
  file : String
  line : Int
  type : Fin 5
  subsys : String
  text : String
  /-- another thread has the mutex -/
  busy : Bool := false

/-- The string that identifies a message, `TsHsMsgStdFilter.cpp:177-179`; `std::ends` is the final
null character. -/
def Offer.key (o : Offer K) : String :=
  o.file ++ "|" ++ toString o.line ++ "|" ++ o.subsys ++ "|" ++ o.text ++ "\x00"

/-- Why a message was or was not displayed: the filter is off, the mutex was taken, the type is
filtered out, it may be displayed, or it is redundant. -/
inductive Verdict where
  | off
  | busy
  | category
  | sent
  | redundant
deriving DecidableEq, Repr

/-- The value `shouldSendMessage` returns. -/
def Verdict.display : Verdict → Bool
  | .off => true
  | .busy => false
  | .category => false
  | .sent => true
  | .redundant => false

/-- The members of the filter that change, `TsHsMsgFilter.cpp:49-50` and
`TsHsMsgStdFilter.cpp:36-37`. -/
structure Filter (K : Type _) where
  map : MsgMap K := []
  processed : Nat := 0
  suppressed : Nat := 0
  lockFail : Nat := 0

/-- `shouldSendMessage`, `TsHsMsgStdFilter.cpp:129-226`. -/
def Filter.offer (c : FilterCfg) (f : Filter K) (o : Offer K) : Out (Filter K × Verdict) :=
  if !c.enabled then .ok (f, .off)
  else if !c.blocking && o.busy then
    .ok ({ f with
           lockFail := f.lockFail + 1 }, .busy)
  else
    let f := { f with
               processed := f.processed + 1 }
    if c.isTypeFiltered o.type then
      .ok ({ f with
             suppressed := f.suppressed + 1 }, .category)
    else
      match f.map.find o.key with
      | none =>
        (makeRoom c.history (f.map.length + 1) f.map).bind fun m =>
          .ok ({ f with
                 map := m.insert o.key [o.time] }, .sent)
      | some times =>
        let times := purgeTimes times (o.time - (c.interval : K))
        if (times.length : Int) < c.count then
          .ok ({ f with
                 map := f.map.set o.key (times ++ [o.time]) }, .sent)
        else
          .ok ({ f with
                 map := f.map.set o.key times
                 suppressed := f.suppressed + 1 }, .redundant)

/-- A sequence of messages, with the verdicts. -/
def Filter.run (c : FilterCfg) : List (Offer K) → Filter K → Out (Filter K × List Verdict)
  | [], f => .ok (f, [])
  | o :: os, f =>
    (f.offer c o).bind fun r => (Filter.run c os r.1).bind fun r' => .ok (r'.1, r.2 :: r'.2)

/-- `restart`, `TsHsMsgStdFilter.cpp:49-64`. -/
def Filter.restart (f : Filter K) : Filter K :=
  { f with
    map := []
    lockFail := 0 }

end Gunns.Hs
