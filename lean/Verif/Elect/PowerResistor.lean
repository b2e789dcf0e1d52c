import Mathlib.Analysis.SpecialFunctions.Pow.Real
import Verif.Base.Const
import Verif.Math.Interp

/-!
# The resistor with a power function

`aspects/electrical/resistive/GunnsResistorPowerFunction`.  Doubles are real numbers and `std::pow` is the power of real numbers, which is used for positive
bases only.
-/

namespace Gunns.PowRes

open Gunns.Interp (limitRange)

noncomputable section

/-- `mConductanceLimit`, core/GunnsBasicLink.cpp:40. -/
def condLimit : ℝ := 10 ^ 15

/-- The link: `mResistance`, `mExponent`, `mUseTangentLine`, `mMinLinearizationPotential` and the blockage malfunction with its value. -/
structure Link where
  resistance : ℝ
  exponent : ℝ
  tangent : Bool
  least : ℝ
  block : Option ℝ

/-- `validate`, GunnsResistorPowerFunction.cpp:170-183. -/
def Link.Valid (l : Link) : Prop := dblEps ≤ l.resistance ∧ 1 / 1000 ≤ |l.exponent|

/-- `dPLimit`, GunnsResistorPowerFunction.cpp:223-224. -/
def drop (l : Link) (p0 p1 : ℝ) : ℝ := max |p0 - p1| l.least

/-- `gLimit`, GunnsResistorPowerFunction.cpp:228-231. -/
def conductance (l : Link) : ℝ :=
  let g := 1 / max l.resistance (1 / condLimit)
  match l.block with
  | some b => g * limitRange 0 (1 - b) 1
  | none => g

/-- `mSystemAdmittance` and `mSystemSource` of `minorStep`, GunnsResistorPowerFunction.cpp:234-274. -/
def system (l : Link) (p0 p1 : ℝ) : ℝ × ℝ :=
  let g := conductance l
  let d := drop l p0 p1
  let e := 1 / innerLimit (1 / 1000) l.exponent
  if 1 / condLimit ≤ g then
    if l.tangent then
      let a := e * (d * g) ^ (e - 1)
      (a, (d * g) ^ e - a * d)
    else ((d * g) ^ e / d, 0)
  else (0, 0)

/-- The matrix of `buildAdmittance`, GunnsResistorPowerFunction.cpp:297-306: row `i`, column `j`. -/
def matrix (a : ℝ) (i j : Fin 2) : ℝ := if i = j then a else -a

/-- `buildSource`, GunnsResistorPowerFunction.cpp:311-315. -/
def source (w : ℝ) (i : Fin 2) : ℝ := if i = 0 then -w else w

/-- `computeFlux`, GunnsResistorPowerFunction.cpp:320-330; `s` is the system of the last step. -/
def flux (s : ℝ × ℝ) (p0 p1 : ℝ) : ℝ :=
  if |p0 - p1| < max p0 p1 * (100 * dblEps) then 0 else (p0 - p1) * matrix s.1 0 0 + source s.2 1

end

end Gunns.PowRes
