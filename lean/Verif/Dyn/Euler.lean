import Mathlib.Analysis.SpecialFunctions.Complex.Arg
import Mathlib.Analysis.SpecialFunctions.Trigonometric.Inverse
import Verif.Dyn.Utils

/-!
# Euler angle sequences

`aspects/dynamics/GunnsDynEulerBase.cpp`, its six derived classes and `GunnsDynEulerFactory.cpp`.
Doubles are reals, `std::sin`, `std::cos`, `std::asin`, `std::sqrt` are the exact functions,
`std::atan2(y, x)` is the argument of the complex number `x + i y` (both are zero at the origin),
and `UnitConversion::PI_OVER_2` is exactly a right angle.
-/

namespace Gunns.Dyn

open Real

/-- The six sequences `GunnsDynEulerFactory::Sequences` the factory can create
(`GunnsDynEulerFactory.cpp:66-95`); any other value is its `TsOutOfBoundsException`. -/
inductive Seq
  | XYZ | XZY | YZX | YXZ | ZXY | ZYX
  deriving DecidableEq, Repr

/-- `create` (`GunnsDynEulerFactory.cpp:62-100`) on the integer value of the enumeration
(`GunnsDynEulerFactory.hh:44-51`). -/
def create : Nat → Option Seq
  | 123 => some .XYZ
  | 132 => some .XZY
  | 231 => some .YZX
  | 213 => some .YXZ
  | 312 => some .ZXY
  | 321 => some .ZYX
  | _ => none

/-- `std::atan2(y, x)`. -/
noncomputable def atan2 (y x : ℝ) : ℝ := Complex.arg ⟨x, y⟩

/-- `computeQuatSeq` (lines 50-59 of `GunnsDynEuler123.cpp`, `…132.cpp`, `…231.cpp`, `…213.cpp`,
`…312.cpp`, `…321.cpp`). -/
def computeQuatSeq (e : Seq) (s1 c1 s2 c2 s3 c3 : ℝ) : Arr ℝ :=
  match e with
  | .XYZ => arr [c1 * c2 * c3 - s1 * s2 * s3, -c1 * s2 * s3 - s1 * c2 * c3,
      -c1 * s2 * c3 + s1 * c2 * s3, -c1 * c2 * s3 - s1 * s2 * c3]
  | .XZY => arr [c1 * c2 * c3 + s1 * s2 * s3, -s1 * c2 * c3 + c1 * s2 * s3,
      -c1 * c2 * s3 + s1 * s2 * c3, -c1 * s2 * c3 - s1 * c2 * s3]
  | .YZX => arr [c1 * c2 * c3 - s1 * s2 * s3, -c1 * c2 * s3 - s1 * s2 * c3,
      -c1 * s2 * s3 - s1 * c2 * c3, -c1 * s2 * c3 + s1 * c2 * s3]
  | .YXZ => arr [c1 * c2 * c3 + s1 * s2 * s3, -c1 * s2 * c3 - s1 * c2 * s3,
      -s1 * c2 * c3 + c1 * s2 * s3, -c1 * c2 * s3 + s1 * s2 * c3]
  | .ZXY => arr [c1 * c2 * c3 - s1 * s2 * s3, -c1 * s2 * c3 + s1 * c2 * s3,
      -c1 * c2 * s3 - s1 * s2 * c3, -c1 * s2 * s3 - s1 * c2 * c3]
  | .ZYX => arr [c3 * c2 * c1 + s3 * s2 * s1, -s3 * c2 * c1 + c3 * s2 * s1,
      -c3 * s2 * c1 - s3 * c2 * s1, -c3 * c2 * s1 + s3 * s2 * c1]

/-- `computeRot2Sin` (lines 68-71 of the same files). -/
def computeRot2Sin (e : Seq) (q : Arr ℝ) : ℝ :=
  match e with
  | .XYZ => qtoMElement q 6
  | .XZY => -qtoMElement q 3
  | .YZX => qtoMElement q 1
  | .YXZ => -qtoMElement q 7
  | .ZXY => qtoMElement q 5
  | .ZYX => -qtoMElement q 2

/-- `computeAnglesNoSing` (lines 80-89 of the same files). -/
noncomputable def computeAnglesNoSing (e : Seq) (q : Arr ℝ) (rot2sin : ℝ) : Arr ℝ :=
  let m := qtoMElement q
  match e with
  | .XYZ => arr [atan2 (-m 7) (m 8), arcsin rot2sin, atan2 (-m 3) (m 0)]
  | .XZY => arr [atan2 (m 5) (m 4), arcsin rot2sin, atan2 (m 6) (m 0)]
  | .YZX => arr [atan2 (-m 2) (m 0), arcsin rot2sin, atan2 (-m 7) (m 4)]
  | .YXZ => arr [atan2 (m 6) (m 8), arcsin rot2sin, atan2 (m 1) (m 4)]
  | .ZXY => arr [atan2 (-m 3) (m 4), arcsin rot2sin, atan2 (-m 2) (m 8)]
  | .ZYX => arr [atan2 (m 1) (m 0), arcsin rot2sin, atan2 (m 5) (m 8)]

/-- `computeAnglesPosSing` (lines 97-104 of the same files). -/
noncomputable def computeAnglesPosSing (e : Seq) (q : Arr ℝ) : Arr ℝ :=
  let m := qtoMElement q
  match e with
  | .XYZ => arr [atan2 (m 1) (m 4), π / 2, 0]
  | .XZY => arr [atan2 (m 2) (m 1), π / 2, 0]
  | .YZX => arr [atan2 (m 6) (m 8), π / 2, 0]
  | .YXZ => arr [atan2 (m 3) (m 0), π / 2, 0]
  | .ZXY => arr [atan2 (m 1) (m 0), π / 2, 0]
  | .ZYX => arr [atan2 (m 7) (m 6), π / 2, 0]

/-- `computeAnglesNegSing` (lines 112-119 of the same files). -/
noncomputable def computeAnglesNegSing (e : Seq) (q : Arr ℝ) : Arr ℝ :=
  let m := qtoMElement q
  match e with
  | .XYZ => arr [atan2 (-m 1) (m 4), -(π / 2), 0]
  | .XZY => arr [atan2 (-m 2) (-m 1), -(π / 2), 0]
  | .YZX => arr [atan2 (m 6) (m 8), -(π / 2), 0]
  | .YXZ => arr [atan2 (-m 3) (m 0), -(π / 2), 0]
  | .ZXY => arr [atan2 (m 1) (m 0), -(π / 2), 0]
  | .ZYX => arr [atan2 (-m 7) (-m 6), -(π / 2), 0]

/-- The members of a `GunnsDynEulerBase` object (`GunnsDynEulerBase.hh`). -/
structure Euler where
  /-- The virtual methods of the object's class. -/
  seq : Seq
  /-- `mAngles`. -/
  angles : Arr ℝ
  /-- `mPrevAngles`. -/
  prevAngles : Arr ℝ
  /-- `mSingularity`. -/
  singularity : Nat

/-- The constructor (`GunnsDynEulerBase.cpp:36-45`). -/
noncomputable def Euler.new (e : Seq) : Euler :=
  ⟨e, zeroV, zeroV, 0⟩

/-- `computeQuat` (`GunnsDynEulerBase.cpp:62-82`): the object afterwards and the quaternion.
`euler` is the optional pointer to new angles. -/
noncomputable def Euler.computeQuat (o : Euler) (euler : Option (Arr ℝ)) : Euler × Arr ℝ :=
  let o := match euler with
    | some a => { o with
                  angles := a
                  prevAngles := a }
    | none => o
  let h := scaleV o.angles (1 / 2)
  (o, computeQuatSeq o.seq (sin (h 0)) (cos (h 0)) (sin (h 1)) (cos (h 1)) (sin (h 2)) (cos (h 2)))

/-- `TOLSING` (`GunnsDynEulerBase.cpp:24`). -/
noncomputable def tolSing : ℝ := sin (π / 2 - 1e-6)

/-- `TOLE15` (`GunnsDynEulerBase.cpp:29`). -/
noncomputable def tolE15 : ℝ := 1e-15

/-- `MsMath::isInRange` (`ms-utils/math/MsMath.hh:477-480`). -/
def isInRange (lower x upper : ℝ) : Prop := lower ≤ x ∧ x ≤ upper

open Classical in
/-- The branches of `update` (`GunnsDynEulerBase.cpp:93-126`): the singularity code and the angles;
`none` is the thrown `TsNumericalException` (the angles are then not numbers and
`mSingularity` is 5). -/
noncomputable def anglesOf (e : Seq) (q : Arr ℝ) : Option (Nat × Arr ℝ) :=
  let s := computeRot2Sin e q
  if isInRange (-1) s 1 then
    if |s| < tolSing then some (0, computeAnglesNoSing e q s)
    else if 0 < s then some (1, computeAnglesPosSing e q)
    else some (2, computeAnglesNegSing e q)
  else if isInRange 1 s (1 + tolE15) then some (3, computeAnglesPosSing e q)
  else if isInRange (-1 - tolE15) s (-1) then some (4, computeAnglesNegSing e q)
  else none

/-- `update` (`GunnsDynEulerBase.cpp:93-133`); `none` is the thrown `TsNumericalException`. -/
noncomputable def Euler.update (o : Euler) (q : Arr ℝ) : Option Euler :=
  match anglesOf o.seq q with
  | some (code, a) => some ⟨o.seq, a, a, code⟩
  | none => none

end Gunns.Dyn
