import Verif.Hs.Filter

/-!
# What the message filter is for

The specification remembers every message it let through, for ever.
-/

namespace Gunns.Hs.Spec

variable {K : Type _} [Field K] [LinearOrder K] [IsStrictOrderedRing K]

/-- How many of these displays were of this message and not before `start`. -/
def recent (sends : List (K × String)) (key : String) (start : K) : Nat :=
  (sends.filter fun s => decide (s.2 = key ∧ start ≤ s.1)).length

/-- What should happen to a message, given all displays so far: it is redundant if `count` copies of
it were displayed within the last `interval` seconds. -/
def verdict (c : FilterCfg) (sends : List (K × String)) (o : Offer K) : Verdict :=
  if c.enabled = false then .off
  else if c.blocking = false ∧ o.busy = true then .busy
  else if c.isTypeFiltered o.type = true then .category
  else if (recent sends o.key (o.time - (c.interval : K)) : Int) < c.count then .sent
  else .redundant

/-- Add a message to the displays if it was let through. -/
def after (sends : List (K × String)) (o : Offer K) (v : Verdict) : List (K × String) :=
  if v = .sent then sends ++ [(o.time, o.key)] else sends

/-- What should happen to a sequence of messages. -/
def verdicts (c : FilterCfg) : List (K × String) → List (Offer K) → List Verdict
  | _, [] => []
  | sends, o :: os => verdict c sends o :: verdicts c (after sends o (verdict c sends o)) os

/-- All displays after a sequence of messages and what happened to them. -/
def displays : List (K × String) → List (Offer K × Verdict) → List (K × String)
  | sends, [] => sends
  | sends, (o, v) :: r => displays (after sends o v) r

/-- No message is called redundant wrongly: `count` copies of it were displayed within the last
`interval` seconds; and all else is as it should be. -/
def NoneWrongly (c : FilterCfg) : List (K × String) → List (Offer K × Verdict) → Prop
  | _, [] => True
  | sends, (o, v) :: r =>
    (v = verdict c sends o ∨ (v = .sent ∧ verdict c sends o = .redundant)) ∧
      NoneWrongly c (after sends o v) r

end Gunns.Hs.Spec
