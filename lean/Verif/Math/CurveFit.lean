import Mathlib.Analysis.SpecialFunctions.Pow.Real
import Mathlib.Analysis.SpecialFunctions.Exp
import Verif.Base.Const
import Verif.Math.Interp

/-!
# Curve fits

`ms-utils/math/approximation`: the fits on `TsApproximation`.  Doubles are real numbers.  A division by zero, and the square root of a negative number, have no
value: `none`.  The polynomials of degree one to five are one fit with the list of their coefficients.
-/

namespace Gunns.CurveFit

open Gunns.Interp (limitRange)

noncomputable section

/-- A fit with its coefficients. -/
inductive Fit where
  /-- `LinearFit`, `QuadraticFit`, `CubicFit`, `QuarticFit`, `QuinticFit` -/
  | poly (l : List ℝ)
  /-- `ProductFit` -/
  | product (a : ℝ)
  /-- `QuadLinFit` -/
  | quadLin (a b c d e f : ℝ)
  /-- `PowerFit` -/
  | power (a b : ℝ)
  /-- `InvLinearFit` -/
  | invLinear (a b c : ℝ)
  /-- `InvQuadraticFit` -/
  | invQuadratic (a b c : ℝ)
  /-- `ExponentialFit` -/
  | exponential (a b c : ℝ)
  /-- `ShowmateFit` -/
  | shomate (a b c d e : ℝ)
  /-- `QuotientFit` -/
  | quotient (a : ℝ)
  /-- `QuadLinInvFit` -/
  | quadLinInv (a b c d e f : ℝ)
  /-- `RationalFit` -/
  | rational (a b c d : ℝ)
  /-- `SutherlandFit` -/
  | sutherland (a b : ℝ)
  /-- `QuadraticRootFit` with the arguments of `init` -/
  | root (a b : ℝ)

/-- The limits `mMinX`, `mMaxX`, `mMinY`, `mMaxY`. -/
structure Range where
  minX : ℝ
  maxX : ℝ
  minY : ℝ
  maxY : ℝ

/-- A quotient of doubles that has a value. -/
def quot (a b : ℝ) : Option ℝ := if b = 0 then none else some (a / b)

/-- A square root that has a value. -/
def root (a : ℝ) : Option ℝ := if a < 0 then none else some (Real.sqrt a)

/-- `evaluate`: CubicFit.hh:76-79 and those of the other polynomials, ProductFit.hh:76-79, QuadLinFit.hh:84-87, PowerFit.hh:75-78, InvLinearFit.hh:78-81,
InvQuadraticFit.hh:79-82, ExponentialFit.hh:80-83, ShowmateFit.hh:80-83, QuotientFit.hh:74-77, QuadLinInvFit.hh:91-94, RationalFit.hh:79-82,
SutherlandFit.hh:78-81, QuadraticRootFit.hh:94-97 with the members of `init`, QuadraticRootFit.cpp:94-97.  Powers of negative numbers are taken to have no value,
although whole ones have. -/
def eval (x y : ℝ) : Fit → Option ℝ
  | .poly l => some (l.foldr (fun a r => a + r * x) 0)
  | .product a => some (a * x * y)
  | .quadLin a b c d e f => some ((a + b * y) + ((c + d * y) + (e + f * y) * x) * x)
  | .power a b => if b < 0 ∨ (b = 0 ∧ x < 0) then none else some (a * b ^ x)
  | .invLinear a b c => (quot c x).map fun q => a * x + b + q
  | .invQuadratic a b c => (quot c x).bind fun q => (quot (b + q) x).map fun r => a + r
  | .exponential a b c => (quot c x).bind fun q => (quot (b + q) x).map fun r => Real.exp (a + r)
  | .shomate a b c d e => (quot (1000000 * e) (x * x)).map fun q => a + (b + (c + d * (1 / 1000) * x) * (1 / 1000) * x) * (1 / 1000) * x + q
  | .quotient a => quot (a * y) x
  | .quadLinInv a b c d e f => quot (y - a - (c + e * x) * x) (b + (d + f * x) * x)
  | .rational a b c d => quot (a + b * x) (1 + (c + d * x) * x)
  | .sutherland a b => (root (x * x * x)).bind fun r => quot (a * r) (b + x)
  | .root a b => (root (a * a + 4 * b * x)).bind fun r => (quot (1 / 2) b).map fun q => (-a + r) * q

/-- `get`, TsApproximation.hh:97-101. -/
def get (r : Range) (f : Fit) (x y : ℝ) : Option ℝ := eval (limitRange r.minX x r.maxX) (limitRange r.minY y r.maxY) f

/-- `getExceptional`, TsApproximation.cpp:117-128; the outer `none` is the exception. -/
def getExceptional (r : Range) (f : Fit) (x y : ℝ) : Option (Option ℝ) :=
  if x < r.minX ∨ r.maxX < x then none else if y < r.minY ∨ r.maxY < y then none else some (eval x y f)

/-- The limits of fits of one variable, for instance LinearFit.cpp, QuadraticRootFit.cpp:82. -/
def oneVariable (minX maxX eps : ℝ) : Range := ⟨minX, maxX, -eps, eps⟩

/-- Whether a pole at `p` is too near to the range, RationalFit.cpp:88-94. -/
def near (minX maxX eps p : ℝ) : Prop := minX ≤ p + eps ∧ p - eps ≤ maxX

/-- The check of `RationalFit::init` and of `QuadLinInvFit::init` with coefficients `c` and `d`, RationalFit.cpp:86-100, QuadLinInvFit.cpp:104-120. -/
def poleFree (minX maxX eps c d : ℝ) : Prop :=
  let disc := c * c - 4 * d
  if eps < disc then ¬ near minX maxX eps (-c + 1 / 2 * Real.sqrt disc) ∧ ¬ near minX maxX eps (-c - 1 / 2 * Real.sqrt disc)
  else if -eps < disc then ¬ (minX ≤ -(1 / 2) * c + eps ∧ -(1 / 2) * c - eps < maxX)
  else True

/-- What `init` accepts: the limits, TsApproximation.cpp:80-105, and the check of each fit for a division by zero: InvLinearFit.cpp:74-94, InvQuadraticFit.cpp,
ExponentialFit.cpp, ShowmateFit.cpp, QuotientFit.cpp:74-94, RationalFit.cpp:78-110, QuadLinInvFit.cpp:93-131, SutherlandFit.cpp:69-88 and
QuadraticRootFit.cpp:76-101.  `old` are the members `mB` and `mC` that a `QuadraticRootFit` has before: zeros after the default constructor, those of the arguments
in the other constructor.  A comparison with the quotient of a zero `mC` is false. -/
def accepts (r : Range) (old : ℝ × ℝ) (f : Fit) : Prop :=
  (r.minX < r.maxX ∧ r.minY < r.maxY) ∧ match f with
    | .poly _ | .product _ | .quadLin .. | .power .. => True
    | .invLinear .. | .invQuadratic .. | .exponential .. | .shomate .. => ¬ (r.minX < dblEps ∧ -dblEps < r.maxX)
    | .quotient _ => ¬ (r.minX < fltEps ∧ -fltEps < r.maxX)
    | .quadLinInv _ _ _ d _ f => poleFree r.minX r.maxX fltEps d f
    | .rational _ _ c d => poleFree r.minX r.maxX dblEps c d
    | .sutherland _ b => ¬ (b + r.minX < dblEps ∧ -dblEps < b - r.maxX)
    | .root _ b => ¬ |b| < dblEps ∧ ¬ (old.2 ≠ 0 ∧ r.minX + fltEps < -old.1 / old.2 ∧ -old.1 / old.2 < r.maxX - fltEps)

end

end Gunns.CurveFit
