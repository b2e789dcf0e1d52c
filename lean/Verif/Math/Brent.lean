import Verif.Base.Const
import Mathlib.Tactic.Linarith
import Mathlib.Tactic.Ring
import Mathlib.Order.Interval.Set.UnorderedInterval
import Mathlib.Algebra.Order.Group.Unbundled.Abs
import Mathlib.Algebra.Order.Group.Abs
import Mathlib.Algebra.Order.Ring.Abs

/-!
# Brent's method

Model of `ms-utils/math/root_finding/BrentMethod.cpp`.

Simplifications: the virtual `evaluate` is a function of its argument (no state, no exceptions); a division by zero, which
would give an infinity or NaN, is a distinct outcome.
-/

namespace Gunns.Brent

variable {K : Type _} [Field K] [LinearOrder K] [IsStrictOrderedRing K]

/-- How `solve` ended: the root and the number of iterations, an exception, or a division by zero. -/
inductive Out (K : Type _)
  | found (x : K) (iter : Nat)
  | notBracketed
  | noConvergence
  | divZero

/-- The variables kept from one iteration to the next (BrentMethod.cpp:79-92). -/
structure St (K : Type _) where
  a : K
  b : K
  c : K
  d : K
  e : K
  fa : K
  fb : K
  fc : K

/-- `(u > 0.0 and v > 0.0) or (u < 0.0 and v < 0.0)` (BrentMethod.cpp:73 and 96). -/
def sameSign (u v : K) : Prop := (0 < u ∧ 0 < v) ∨ (u < 0 ∧ v < 0)

instance (u v : K) : Decidable (sameSign u v) := inferInstanceAs (Decidable (_ ∨ _))

/-- Lines 96-101. -/
def rename (s : St K) : St K :=
  if sameSign s.fb s.fc then { s with
    c := s.a
    fc := s.fa
    d := s.b - s.a
    e := s.b - s.a }
  else s

/-- Lines 102-109. -/
def exchange (s : St K) : St K :=
  if |s.fc| < |s.fb| then { s with
    a := s.b
    b := s.c
    c := s.b
    fa := s.fb
    fb := s.fc
    fc := s.fb }
  else s

/-- Line 112. -/
def tolOf (tol b : K) : K := 2 * dblEps * |b| + 1 / 2 * tol

/-- The quotient p, q of the interpolation (lines 121-130); `none` is a division by zero. -/
def quotient (xm : K) (s : St K) : Option (K × K) :=
  if s.fa = 0 then none else
  if s.a = s.c then some (2 * xm * (s.fb / s.fa), 1 - s.fb / s.fa)
  else if s.fc = 0 then none
  else some (s.fb / s.fa * (2 * xm * (s.fa / s.fc) * (s.fa / s.fc - s.fb / s.fc) - (s.b - s.a) * (s.fb / s.fc - 1)),
    (s.fa / s.fc - 1) * (s.fb / s.fc - 1) * (s.fb / s.fa - 1))

/-- The step d and the one before, e (lines 120-150); `none` is a division by zero. -/
def stepOf (tol1 xm : K) (s : St K) : Option (K × K) :=
  if tol1 ≤ |s.e| ∧ |s.fb| < |s.fa| then
    match quotient xm s with
    | none => none
    | some (p0, q0) =>
      let q := if 0 < p0 then -q0 else q0
      let p := |p0|
      let min1 := 3 * xm * q - |tol1 * q|
      let min2 := |s.e * q|
      if 2 * p < (if min1 < min2 then min1 else min2) then
        if q = 0 then none else some (p / q, s.d)
      else some (xm, xm)
  else some (xm, xm)

/-- The next trial (lines 153-161). -/
def trial (tol1 xm b d : K) : K := if tol1 < |d| then b + d else if 0 ≤ xm then b + tol1 else b - tol1

/-- One iteration (lines 96-162): the root, or the next state. -/
def turn (f : K → K) (tol : K) (s0 : St K) : Option (K ⊕ St K) :=
  let s := exchange (rename s0)
  let tol1 := tolOf tol s.b
  let xm := 1 / 2 * (s.c - s.b)
  if |xm| ≤ tol1 ∨ 0 = s.fb then some (.inl s.b)
  else match stepOf tol1 xm s with
    | none => none
    | some (d, e) =>
      let b := trial tol1 xm s.b d
      some (.inr { a := s.b, b := b, c := s.c, d := d, e := e, fa := s.fb, fb := f b, fc := s.fc })

/-- The loop (lines 95-168) with `k` iterations left. -/
def iterate (f : K → K) (tol : K) : Nat → Nat → St K → Out K
  | 0, _, _ => .noConvergence
  | k + 1, iter, s =>
    match turn f tol s with
    | none => .divZero
    | some (.inl x) => .found x iter
    | some (.inr s1) => iterate f tol k (iter + 1) s1

/-- `solve` (BrentMethod.cpp:63-168). -/
def solve (f : K → K) (x1 x2 tol : K) : Out K :=
  if sameSign (f x1) (f x2) then .notBracketed
  else iterate f tol 100 1
    { a := x1, b := x2, c := x2, d := 0, e := 0, fa := f x1, fb := f x2, fc := f x2 }

end Gunns.Brent
