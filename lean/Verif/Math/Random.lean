import Mathlib.Algebra.Order.Floor.Ring
import Mathlib.Data.Rat.Floor
import Verif.Base.Const
import Verif.Math.RandomTable

/-!
# Random numbers from a table

`ms-utils/math/TS_random`.  Doubles are an ordered field with a floor, and `int` is an integer whose overflow is the outcome `none`.
-/

namespace Gunns.Random

variable {K : Type*} [Field K] [LinearOrder K] [IsStrictOrderedRing K] [FloorRing K]

/-- The greatest `int`. -/
def intMax : Int := 2 ^ 31 - 1

/-- An entry of the table. -/
def entry (k : Nat) : K := (table.getD k 0 : K) / 10 ^ 15

/-- `boundSeed`, TS_random.cpp:251-255; the absolute value of the least `int` overflows. -/
def boundSeed (seed : Int) : Option Nat := if seed = -intMax - 1 then none else some (seed.natAbs % 1000)

/-- `incrementSeed`, TS_random.cpp:260-265. -/
def incrementSeed (seed : Int) : Option Nat := (boundSeed seed).map fun b => (b + 1) % 1000

/-- `randomDouble(seed)`, TS_random.cpp:270-275, with the new seed. -/
def unit (seed : Int) : Option (K × Nat) := (incrementSeed seed).map fun s => (entry s, s)

/-- `randomDouble(seed, minValue, maxValue)`, TS_random.cpp:290-307. -/
def double (seed : Int) (lo hi : K) : Option (K × Nat) :=
  (incrementSeed seed).map fun s =>
    if hi < lo then ((lo - hi) * entry s + hi, s) else ((hi - lo) * entry s + lo, s)

/-- The part of `randomInt` with its limits in order, TS_random.cpp:346-348: the range overflows if it is more than the greatest `int`. -/
def whole (s : Nat) (lo hi : Int) : Option (Int × Nat) :=
  if hi - lo + 1 > intMax then none else some (⌊entry s * ((hi - lo + 1 : Int) : ℚ)⌋ + lo, s)

/-- `randomInt(seed, minValue, maxValue)`, TS_random.cpp:332-349. -/
def int (seed lo hi : Int) : Option (Int × Nat) :=
  (incrementSeed seed).bind fun s => if lo > hi then whole s hi lo else whole s lo hi

/-- `randomInt(seed, maxValue)`, TS_random.cpp:317-329. -/
def intTo (seed hi : Int) : Option (Int × Nat) := if 0 ≤ hi then int seed 0 hi else int seed hi 0

/-- `valueFound`, TS_random.cpp:371-384. -/
def found (v : K) (vs : List K) : Bool := vs.any fun w => decide (v ≤ w + dblEps) && decide (v ≥ w - dblEps)

/-- `uniqueRandomDouble`, TS_random.cpp:354-368, with at most `fuel` further draws. -/
def unique (lo hi : K) (vs : List K) : Nat → Int → Option (K × Nat)
  | 0, seed => (double seed lo hi).bind fun r => if found r.1 vs then none else some r
  | fuel + 1, seed => (double seed lo hi).bind fun r => if found r.1 vs then unique lo hi vs fuel r.2 else some r

end Gunns.Random
