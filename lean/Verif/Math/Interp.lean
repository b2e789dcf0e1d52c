import Verif.Base.Loop
import Verif.Base.Const

/-!
# Table interpolation

Model of `ms-utils/math/approximation/TsLinearInterpolator.cpp`, `TsBilinearInterpolator.cpp`,
`TsBilinearInterpolatorReverse.cpp` and their base class `TsApproximation.cpp`.

Simplifications: array lengths are natural numbers (a negative length is rejected like 0); null pointers and empty
names are not modelled, both are rejected with an exception. An access outside of an array, or through a null pointer,
is `none`.
-/

namespace Gunns.Interp

variable {K : Type _} [Field K] [LinearOrder K] [IsStrictOrderedRing K]

/-- `MsMath::limitRange` (ms-utils/math/MsMath.hh:411-414). -/
def limitRange (lower x upper : K) : K := max (min x upper) lower

/-- How a call ended. -/
inductive Res (α : Type _)
  | ok (a : α)
  | thrown (a : α)

/-- The loop of `validateOrdered` (TsLinearInterpolator.cpp:99-108), true if nothing is thrown; the loops in
TsBilinearInterpolator.cpp:156-177 are the same. -/
def orderedLoop (n : Nat) (x : Nat → K) : Bool :=
  loop (fun i r => if x (i + 1) ≤ x i ∧ x (i + 1) ≤ x (i + 2) then false
    else if x i ≤ x (i + 1) ∧ x (i + 2) ≤ x (i + 1) then false
    else if |x i - x (i + 1)| < dblEps then false else r) (n - 2) true

/-- `validateOrdered` (TsLinearInterpolator.cpp:89-109). -/
def validateOrdered (n : Nat) (x : Nat → K) : Bool := if n < 2 then false else orderedLoop n x

/-! ## One variable -/

/-- `TsLinearInterpolator`: mX, mZ, mM, mI, mMinX, mMaxX, mInitFlag; `alloc` is whether mX and mZ point to arrays. -/
structure Lin (K : Type _) where
  x : Nat → K
  z : Nat → K
  n : Nat
  i : Nat
  minX : K
  maxX : K
  flag : Bool
  alloc : Bool

/-- The default constructor (TsLinearInterpolator.cpp:19-28). -/
def Lin.new : Lin K := { x := fun _ => 0, z := fun _ => 0, n := 0, i := 0, minX := 0, maxX := 0, flag := false, alloc := false }

/-- `init` (TsLinearInterpolator.cpp:124-183, TsApproximation.cpp:80-105). -/
def Lin.init (x z : Nat → K) (n : Nat) (minX maxX : K) (s : Lin K) : Res (Lin K) :=
  if maxX ≤ minX then .thrown { s with flag := false } else
  let s := { s with
    minX := minX
    maxX := maxX
    flag := false }
  if validateOrdered n x = false then .thrown s else
  let rev : Bool := decide (x 1 < x 0)
  let mX := fun i => if rev then x (n - i - 1) else x i
  let mZ := fun i => if rev then z (n - i - 1) else z i
  let s := { s with
    n := n
    x := mX
    z := mZ }
  if minX < mX 0 ∨ mX (n - 1) < maxX then .thrown { s with alloc := false }
  else .ok { s with
    alloc := true
    flag := true }

/-- The loop towards larger values (TsLinearInterpolator.cpp:206-210), `k` values left. -/
def upFrom (mX : Nat → K) (x : K) : Nat → Nat → Nat
  | 0, c => c
  | k + 1, c => if x < mX c then c else upFrom mX x k (c + 1)

/-- The loop towards smaller values (TsLinearInterpolator.cpp:215-219). -/
def downFrom (mX : Nat → K) (x : K) : Nat → Nat
  | 0 => 0
  | c + 1 => if mX (c + 1) ≤ x then c + 1 else downFrom mX x c

/-- `selectCell` (TsLinearInterpolator.cpp:200-223); `none`: an access outside of the array. -/
def selectCell (x : K) (mX : Nat → K) (size c : Nat) : Option Nat :=
  if c + 1 < size then
    some (if mX (c + 1) ≤ x then upFrom mX x (size - 1 - (c + 1)) (c + 1) - 1
      else if x < mX c ∧ 0 < c then downFrom mX x (c - 1) else c)
  else none

/-- `evaluate` (TsLinearInterpolator.cpp:235-241). -/
def Lin.evaluate (x : K) (s : Lin K) : Option (K × Lin K) :=
  if s.alloc then
    match selectCell x s.x s.n s.i with
    | none => none
    | some c => some (s.z c + (s.z (c + 1) - s.z c) * (x - s.x c) / (s.x (c + 1) - s.x c), { s with i := c })
  else none

/-- `get` (TsApproximation.hh:97-101); the second argument is not used by `evaluate`. -/
def Lin.get (x : K) (s : Lin K) : Option (K × Lin K) := s.evaluate (limitRange s.minX x s.maxX)

/-- `getExceptional` (TsApproximation.cpp:117-128) with a second argument in range; `some none` is the exception. -/
def Lin.getExceptional (x : K) (s : Lin K) : Option (Option K × Lin K) :=
  if x < s.minX ∨ s.maxX < x then some (none, s)
  else (s.evaluate x).map (fun r => (some r.1, r.2))

/-! ## Two variables -/

/-- `TsBilinearInterpolator`; `alloc` as above. -/
structure Bil (K : Type _) where
  x : Nat → K
  y : Nat → K
  z : Nat → Nat → K
  m : Nat
  n : Nat
  i : Nat
  j : Nat
  minX : K
  maxX : K
  minY : K
  maxY : K
  flag : Bool
  alloc : Bool

/-- The default constructor (TsBilinearInterpolator.cpp:19-31). -/
def Bil.new : Bil K := { x := fun _ => 0, y := fun _ => 0, z := fun _ _ => 0, m := 0, n := 0, i := 0, j := 0, minX := 0, maxX := 0, minY := 0, maxY := 0, flag := false, alloc := false }

/-- Replaces an entry. -/
def put {α : Type _} (f : Nat → α) (i : Nat) (v : α) : Nat → α := fun k => if k = i then v else f k

/-- `std::swap` of all entries of rows `a` and `b` (TsBilinearInterpolator.cpp:206-208). -/
def swapRows {α : Type _} (z : Nat → α) (a b : Nat) : Nat → α := fun k => if k = a then z b else if k = b then z a else z k

/-- Reversal of an independent variable together with the rows (TsBilinearInterpolator.cpp:203-209 and 221-227). -/
def reverse {α : Type _} (n : Nat) (x : Nat → K) (rows : Nat → α) : (Nat → K) × (Nat → α) :=
  loop (fun i s => (put (put s.1 i (x (n - i - 1))) (n - i - 1) (x i), swapRows s.2 i (n - i - 1))) (n / 2 + 1)
    (fun _ => 0, rows)

/-- `init` (TsBilinearInterpolator.cpp:120-265, TsApproximation.cpp:80-105); `z i j` is `z[i*n+j]`. -/
def Bil.init (x y : Nat → K) (z : Nat → Nat → K) (m n : Nat) (minX maxX minY maxY : K) (s : Bil K) : Res (Bil K) :=
  if maxX ≤ minX then .thrown { s with flag := false } else
  if maxY ≤ minY then .thrown { s with flag := false } else
  let s := { s with
    minX := minX
    maxX := maxX
    minY := minY
    maxY := maxY
    flag := false
    m := m
    n := n }
  if m < 2 then .thrown s else
  if n < 2 then .thrown s else
  if orderedLoop m x = false then .thrown s else
  if orderedLoop n y = false then .thrown s else
  let xr := if x 1 < x 0 then reverse m x z else (x, z)
  let yr := if y 1 < y 0 then reverse n y (fun j i => xr.2 i j) else (y, fun j i => xr.2 i j)
  let s := { s with
    x := xr.1
    y := yr.1
    z := fun i j => yr.2 j i }
  if minX < s.x 0 ∨ s.x (m - 1) < maxX then .thrown { s with alloc := false } else
  if minY < s.y 0 ∨ s.y (n - 1) < maxY then .thrown { s with alloc := false } else
  .ok { s with
    alloc := true
    i := 0
    j := 0 }

/-- The destructor's `cleanup` (TsBilinearInterpolator.cpp:72-101): false if it goes through a null pointer. -/
def Bil.destroy (s : Bil K) : Bool := s.m == 0 || s.alloc

/-- The loop towards larger values (TsBilinearInterpolator.cpp:282-287), `k` values left. -/
def searchUp (mX : Nat → K) (x : K) : Nat → Nat → Option Nat
  | 0, _ => none
  | k + 1, i => if x ≤ mX i then some (i - 1) else searchUp mX x k (i + 1)

/-- The loop towards smaller values (TsBilinearInterpolator.cpp:290-295), starting below `k`. -/
def searchDown (mX : Nat → K) (x : K) : Nat → Option Nat
  | 0 => none
  | k + 1 => if mX k ≤ x then some k else searchDown mX x k

/-- The search for a cell (TsBilinearInterpolator.cpp:280-296 and 300-316). -/
def cell (mX : Nat → K) (m : Nat) (x : K) (c : Nat) : Nat :=
  if mX (c + 1) ≤ x then (searchUp mX x (m - (c + 1)) (c + 1)).getD c
  else if x < mX c then (searchDown mX x c).getD c
  else c

/-- `evaluate` (TsBilinearInterpolator.cpp:276-324). -/
def Bil.evaluate (x y : K) (s : Bil K) : Option (K × Bil K) :=
  if s.alloc = true ∧ s.i + 1 < s.m ∧ s.j + 1 < s.n then
    let i := cell s.x s.m x s.i
    let j := cell s.y s.n y s.j
    let z1 := (s.x (i + 1) - x) * s.z i j + (x - s.x i) * s.z (i + 1) j
    let z2 := (s.x (i + 1) - x) * s.z i (j + 1) + (x - s.x i) * s.z (i + 1) (j + 1)
    some ((z1 * (s.y (j + 1) - y) + z2 * (y - s.y j)) * (1 / (s.x (i + 1) - s.x i)) / (s.y (j + 1) - s.y j),
      { s with
        i := i
        j := j })
  else none

/-- `get` (TsApproximation.hh:97-101). -/
def Bil.get (x y : K) (s : Bil K) : Option (K × Bil K) :=
  s.evaluate (limitRange s.minX x s.maxX) (limitRange s.minY y s.maxY)

/-- `getExceptional` (TsApproximation.cpp:117-128); `some none` is the exception. -/
def Bil.getExceptional (x y : K) (s : Bil K) : Option (Option K × Bil K) :=
  if x < s.minX ∨ s.maxX < x then some (none, s)
  else if y < s.minY ∨ s.maxY < y then some (none, s)
  else (s.evaluate x y).map (fun r => (some r.1, r.2))

/-! ## The second variable from the first and the value -/

/-- `init` of the reverse interpolator, called after that of the base class
(TsBilinearInterpolatorReverse.cpp:70-91): the range of the values in the table. -/
def Bil.initReverse (s : Bil K) : Bil K :=
  let r := loop (fun i r => loop (fun j (r : K × K) =>
      if s.z i j < r.1 then (s.z i j, r.2) else if r.2 < s.z i j then (r.1, s.z i j) else r) s.n r) s.m
    ((10 : K) ^ 16, -(10 : K) ^ 16)
  { s with
    minY := r.1
    maxY := r.2
    flag := true }

/-- `isBetween` (TsBilinearInterpolatorReverse.cpp:221-228). -/
def isBetween (a x b : K) : Bool := if a ≤ b then decide (a ≤ x ∧ x ≤ b) else decide (b ≤ x ∧ x ≤ a)

/-- The variables of the loop (TsBilinearInterpolatorReverse.cpp:136-147); `dir` is 0, 1 or -1. -/
structure RevSt (K : Type _) where
  j : Nat
  y : K
  dir : Int
  delta : K
  tail : K
  head : K

/-- The `else` branch of a turn (TsBilinearInterpolatorReverse.cpp:163-210); `sec j` is
`mZ[mI][j] + xFrac * (mZ[mI+1][j] - mZ[mI][j])`. -/
def revNext (sec mY : Nat → K) (n : Nat) (z : K) (s : RevSt K) : RevSt K :=
  let hd := |z - s.head|
  let td := |z - s.tail|
  let s1 := if hd < s.delta then { s with
      y := mY (s.j + 1)
      delta := hd } else s
  let s2 := if td < s1.delta then { s1 with
      y := mY s1.j
      delta := td } else s1
  let dir := if s2.dir = 0 then (if hd < td then 1 else -1) else s2.dir
  let j : Int := (s2.j : Int) + dir
  let s3 := { s2 with dir := dir }
  if j < 0 then { s3 with
    j := n - 2
    tail := sec (n - 2)
    head := sec (n - 2 + 1) }
  else if (n : Int) - 2 < j then { s3 with
    j := 0
    tail := sec 0
    head := sec 1 }
  else if 0 < dir then { s3 with
    j := j.toNat
    tail := s3.head
    head := sec (j.toNat + 1) }
  else { s3 with
    j := j.toNat
    head := s3.tail
    tail := sec j.toNat }

/-- The loop (TsBilinearInterpolatorReverse.cpp:148-211) with `k` turns left. Returns y and mJ. -/
def revLoop (sec mY : Nat → K) (n : Nat) (z : K) : Nat → RevSt K → K × Nat
  | 0, s => (s.y, s.j)
  | k + 1, s =>
    if isBetween s.tail z s.head then
      (if s.head ≠ s.tail then mY s.j + (mY (s.j + 1) - mY s.j) * (z - s.tail) / (s.head - s.tail)
        else 1 / 2 * (mY s.j + mY (s.j + 1)), s.j)
    else revLoop sec mY n z k (revNext sec mY n z s)

/-- `evaluate` of the reverse interpolator (TsBilinearInterpolatorReverse.cpp:109-213). -/
def Bil.evaluateReverse (x z : K) (s : Bil K) : Option (K × Bil K) :=
  if s.alloc = true ∧ s.i + 1 < s.m ∧ s.j + 1 < s.n then
    let i := cell s.x s.m x s.i
    let xFrac := (x - s.x i) / (s.x (i + 1) - s.x i)
    let sec := fun j => s.z i j + xFrac * (s.z (i + 1) j - s.z i j)
    let r := revLoop sec s.y s.n z (s.n - 1)
      { j := s.j, y := s.y s.j, dir := 0, delta := (10 : K) ^ 16, tail := sec s.j, head := sec (s.j + 1) }
    some (r.1, { s with
      i := i
      j := r.2 })
  else none

/-- `get` (TsApproximation.hh:97-101). -/
def Bil.getReverse (x z : K) (s : Bil K) : Option (K × Bil K) :=
  s.evaluateReverse (limitRange s.minX x s.maxX) (limitRange s.minY z s.maxY)

/-- `getExceptional` (TsApproximation.cpp:117-128). -/
def Bil.getExceptionalReverse (x z : K) (s : Bil K) : Option (Option K × Bil K) :=
  if x < s.minX ∨ s.maxX < x then some (none, s)
  else if z < s.minY ∨ s.maxY < z then some (none, s)
  else (s.evaluateReverse x z).map (fun r => (some r.1, r.2))

/-! ## Histories of calls -/

/-- A sequence of calls, `none` if one of them is undefined behaviour. -/
def runCalls {C O σ : Type _} (f : C → σ → Option (O × σ)) : List C → σ → Option (List O × σ)
  | [], s => some ([], s)
  | c :: cs, s =>
    match f c s with
    | none => none
    | some (o, s1) =>
      match runCalls f cs s1 with
      | none => none
      | some (os, s2) => some (o :: os, s2)

/-- A call by the user of a linear interpolator. -/
inductive Call (K : Type _)
  | get (x : K)
  | exact (x : K)

/-- One call: the value, or `none` for an exception; `none` as a whole is undefined behaviour. -/
def Lin.call : Call K → Lin K → Option (Option K × Lin K)
  | .get x, s => (s.get x).map (fun r => (some r.1, r.2))
  | .exact x, s => s.getExceptional x

/-- A call by the user of a bilinear interpolator. -/
inductive Call2 (K : Type _)
  | get (x y : K)
  | exact (x y : K)

/-- One call of a bilinear interpolator. -/
def Bil.call : Call2 K → Bil K → Option (Option K × Bil K)
  | .get x y, s => (s.get x y).map (fun r => (some r.1, r.2))
  | .exact x y, s => s.getExceptional x y

/-- One call of a reverse interpolator. -/
def Bil.callReverse : Call2 K → Bil K → Option (Option K × Bil K)
  | .get x z, s => (s.getReverse x z).map (fun r => (some r.1, r.2))
  | .exact x z, s => s.getExceptionalReverse x z

end Gunns.Interp
