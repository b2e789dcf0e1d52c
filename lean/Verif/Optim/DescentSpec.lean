import Verif.Optim.Descent
import Mathlib.Logic.Function.Basic

/-!
# What the gradient descent optimizer should do

With `n` inputs an epoch has `2 n + 1` runs: the state itself, then for each input the state with the input
increased and the state with the input decreased.  `c k` is the cost run `k` should return.
-/

namespace Gunns.Optim.Descent.Spec

variable {K : Type _} [Field K] [LinearOrder K] [IsStrictOrderedRing K]

/-- A value moved into an interval. -/
def clip (lo hi x : K) : K := if x < lo then lo else if hi < x then hi else x

/-- Size of the trial step of an input at `x`. -/
def trial (lo hi x : K) : K := if x = 0 then (hi - lo) / 1000 else |x| / 1000

/-- The two trial values. -/
def up (lo hi x : K) : K := clip lo hi (x + trial lo hi x)
def down (lo hi x : K) : K := clip lo hi (x - trial lo hi x)

/-- A trial helps if it is cheaper and its step is not negligible. -/
def Helps (c cTrial step : K) : Prop := cTrial < c ∧ dblEps < |step|

/-- Where a trial's line reaches zero cost, from the present value. -/
def toZero (c cTrial step : K) : K := step * (c / (c - cTrial))

open Classical in
/-- Move of one input from `x`, with the costs of the state and of its two trials. -/
noncomputable def move (lo hi x c cUp cDown : K) : K :=
  if Helps c cDown (down lo hi x - x) ∧ cDown < cUp then toZero c cDown (down lo hi x - x)
  else if Helps c cUp (up lo hi x - x) then toZero c cUp (up lo hi x - x)
  else 0

/-- Trial `p` of a state: `2 i` increases input `i` and `2 i + 1` decreases it. -/
def trialOf (lo hi : Nat → K) (x : Nat → K) (p : Nat) : Nat → K :=
  Function.update x (p / 2)
    (if p % 2 = 0 then up (lo (p / 2)) (hi (p / 2)) (x (p / 2))
     else down (lo (p / 2)) (hi (p / 2)) (x (p / 2)))

/-- Input `i` of the state after the one at `x`, from the costs `c` and `cTrial` of the state and its trials. -/
noncomputable def next (n : Nat) (gain : K) (lo hi : Nat → K) (x : Nat → K) (c : K) (cTrial : Nat → K)
    (i : Nat) : K :=
  clip (lo i) (hi i)
    (x i + gain / ((n : Nat) : K) * move (lo i) (hi i) (x i) c (cTrial (2 * i)) (cTrial (2 * i + 1)))

/-- Number of runs sent out. -/
def sentIn : List (Ev K) → Nat
  | [] => 0
  | .run :: t => sentIn t + 1
  | .back _ _ :: t => sentIn t

/-- Results are the costs of runs of the epoch in progress, the first run's result comes first, and all of an
    epoch's results are back before the next epoch begins. -/
def Timely (m : Nat) (c : Nat → K) (t : List (Ev K)) : Prop :=
  ∀ pre e post, t = pre ++ e :: post →
    match e with
    | .run => m ∣ sentIn pre → ∀ k, k < sentIn pre → Ev.back (k : Int) (c k) ∈ pre
    | .back id v => ∃ k : Nat, id = (k : Int) ∧ v = c k ∧ k < sentIn pre ∧ k / m = (sentIn pre - 1) / m ∧
        (k % m ≠ 0 → Ev.back ((k / m * m : Nat) : Int) (c (k / m * m)) ∈ pre)

end Gunns.Optim.Descent.Spec
