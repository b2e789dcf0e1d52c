import Mathlib.Analysis.Real.Sqrt
import Mathlib.Data.Fin.VecNotation

/-!
# Intersection of a line segment with primitive shapes
(ms-utils/math/intersect/LineSegmentIntersect.cpp)

Simplifications: numbers are those of an ordered field, or real numbers where a square root is taken;
the operations of JEOD's `Vector3`, which are not part of the repository, are those of their names.
The answer `some x` is `true` with the intersection point `x`, `none` is `false`.  The output argument
may be a null pointer in the code; then only the point is missing.
-/

namespace Gunns.Geom

/-- Three components. -/
abbrev V3 (K : Type _) := Fin 3 → K

section
variable {K : Type _} [Field K]

/-- `DOT`, LineSegmentIntersect.cpp:31. -/
def dot (u v : V3 K) : K := u 0 * v 0 + u 1 * v 1 + u 2 * v 2

/-- `SUB`, LineSegmentIntersect.cpp:32. -/
def sub (u v : V3 K) : V3 K := ![u 0 - v 0, u 1 - v 1, u 2 - v 2]

/-- `CROSS`, LineSegmentIntersect.cpp:30. -/
def cross (u v : V3 K) : V3 K :=
  ![u 1 * v 2 - u 2 * v 1, u 2 * v 0 - u 0 * v 2, u 0 * v 1 - u 1 * v 0]

/-- `SCALE`, LineSegmentIntersect.cpp:34. -/
def scale (s : K) (v : V3 K) : V3 K := ![s * v 0, s * v 1, s * v 2]

/-- `POINT_ON_LINE`, LineSegmentIntersect.cpp:37-40. -/
def pointOnLine (u v : V3 K) (t : K) : V3 K :=
  ![u 0 + (v 0 - u 0) * t, u 1 + (v 1 - u 1) * t, u 2 + (v 2 - u 2) * t]

/-- `EPSILON`, LineSegmentIntersect.cpp:43. -/
def epsilon : K := 1 / 100000

variable [LinearOrder K]

/-- `triangle`, LineSegmentIntersect.cpp:79-164. -/
def triangle (p q a b c : V3 K) : Option (V3 K) :=
  let ab := sub b a
  let ac := sub c a
  let qp := sub p q
  let n := cross ab ac
  let d := dot qp n
  if |d| < epsilon then none
  else
    let ap := sub p a
    let t := dot ap n
    let e := cross qp ap
    let v := dot ac e
    let w := -dot ab e
    if d < 0 then
      if t > 0 then none
      else if t < d then none
      else if v > 0 ∨ v < d then none
      else if w > 0 ∨ v + w < d then none
      else some (pointOnLine p q (t / d))
    else
      if t < 0 then none
      else if t > d then none
      else if v < 0 ∨ v > d then none
      else if w < 0 ∨ v + w > d then none
      else some (pointOnLine p q (t / d))

end

/-- `cylinder`, LineSegmentIntersect.cpp:179-288.  The divisions are guarded: by `nn` if the segment
has an extent along the axis, by `a` and by `nd`, which are not zero there. -/
noncomputable def cylinder (sa sb p q : V3 ℝ) (r : ℝ) : Option (V3 ℝ) :=
  let d := sub q p
  let m := sub sa p
  let n := sub sb sa
  let md := dot m d
  let nd := dot n d
  let dd := dot d d
  if md < 0 ∧ md + nd < 0 then none
  else if md > dd ∧ md + nd > dd then none
  else
    let nn := dot n n
    let mn := dot m n
    let a := dd * nn - nd * nd
    let k := dot m m - r * r
    let c := dd * k - md * md
    if |a| < epsilon then
      if c > 0 then none
      else
        let t := if md < 0 then -mn / nn else if md > dd then (nd - mn) / nn else 0
        some (pointOnLine sa sb t)
    else
      let b := dd * mn - nd * md
      let discr := b * b - a * c
      if discr < 0 then none
      else
        let t := (-b - Real.sqrt discr) / a
        if t < 0 ∨ t > 1 then none
        else if md + t * nd < 0 then
          if nd ≤ 0 then none
          else
            let t := -md / nd
            if k + 2 * t * (mn + t * nn) ≤ 0 then some (pointOnLine sa sb t) else none
        else if md + t * nd > dd then
          if nd ≥ 0 then none
          else
            let t := (dd - md) / nd
            if k + dd - 2 * md + t * (2 * (mn - nd) + t * nn) ≤ 0 then some (pointOnLine sa sb t)
            else none
        else some (pointOnLine sa sb t)

/-- `sphere`, LineSegmentIntersect.cpp:306-364.  The division by the length of the segment is not
guarded: the outer `none` is the division by zero.  (In IEEE arithmetic it makes all later comparisons
false, so that the code says that any point intersects any sphere.) -/
noncomputable def sphere (p q sc : V3 ℝ) (sr : ℝ) : Option (Option (V3 ℝ)) :=
  let d := sub q p
  let dist := Real.sqrt (dot d d)
  if dist = 0 then none
  else
    let d := scale (1 / dist) d
    let m := sub p sc
    let b := dot m d
    let c := dot m m - sr * sr
    if c > 0 ∧ b > 0 then some none
    else
      let discr := b * b - c
      if discr < 0 then some none
      else
        let sqrtd := Real.sqrt discr
        let t := -b - sqrtd
        if t < 0 ∧ sqrtd < b then some none
        else
          let t := if t < 0 then 0 else t
          if t > dist then some none
          else some (some ![p 0 + t * d 0, p 1 + t * d 1, p 2 + t * d 2])

/-- `spheroid`, LineSegmentIntersect.cpp:382-419; the outer `none` is a division by zero.  (The code
also transforms the output array if there is no intersection and it was not written.) -/
noncomputable def spheroid (p q sc : V3 ℝ) (srx sry srz : ℝ) : Option (Option (V3 ℝ)) :=
  if srx = 0 ∨ sry = 0 ∨ srz = 0 then none
  else
    let p0 := ![(p 0 - sc 0) / srx, (p 1 - sc 1) / sry, (p 2 - sc 2) / srz]
    let q0 := ![(q 0 - sc 0) / srx, (q 1 - sc 1) / sry, (q 2 - sc 2) / srz]
    let sc0 := ![0, 0, 0]
    match sphere p0 q0 sc0 1 with
    | none => none
    | some none => some none
    | some (some x) => some (some ![x 0 * srx + sc 0, x 1 * sry + sc 1, x 2 * srz + sc 2])

end Gunns.Geom
