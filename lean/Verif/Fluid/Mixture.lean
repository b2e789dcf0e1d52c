import Verif.Base.Const
import Verif.Base.Loop

/-!
# Conversions of mixtures

`GunnsFluidUtils`: mole fractions, mass fractions and partial pressures, normalization, mixing, and the transformation
of a mixture to another set of compounds.

Simplifications: doubles are numbers of an ordered field; arrays are functions of the index, and what the code does not
write stays as it was; a compound is a number; the molecular weights that a fluid configuration has are an array.
-/

namespace Gunns.Mixture

variable {K : Type _} [Field K] [LinearOrder K] [IsStrictOrderedRing K]

/-- The sum of the first `n` entries, added up in this order. -/
def total (n : Nat) (f : Nat → K) : K := loop (fun i s => s + f i) n 0

/-- The first `n` entries are written. -/
def write (n : Nat) (new old : Nat → K) : Nat → K := fun i => if i < n then new i else old i

/-- `GunnsFluidUtils::convertMoleFractionToMassFraction`, core/GunnsFluidUtils.cpp:1028-1050. -/
def moleToMass (n : Nat) (mw x out : Nat → K) : Nat → K :=
  let temp := fun i => x i * mw i
  let sum := total n temp
  if sum ≥ dblEps then write n (fun i => temp i / sum) out else out

/-- `GunnsFluidUtils::convertMassFractionToMoleFraction`, core/GunnsFluidUtils.cpp:1061-1083. -/
def massToMole (n : Nat) (mw x out : Nat → K) : Nat → K :=
  let temp := fun i => x i / mw i
  let sum := total n temp
  if sum ≥ dblEps then write n (fun i => temp i / sum) out else out

/-- `GunnsFluidUtils::convertPartialPressureToMoleFraction`, core/GunnsFluidUtils.cpp:1094-1108. -/
def pressureToMole (n : Nat) (x out : Nat → K) : Nat → K :=
  let sum := total n x
  if sum ≥ dblEps then write n (fun i => x i / sum) out else out

/-- `GunnsFluidUtils::convertMoleFractionToPartialPressure`, core/GunnsFluidUtils.cpp:1119-1127. -/
def moleToPressure (n : Nat) (x : Nat → K) (pressure : K) (out : Nat → K) : Nat → K :=
  write n (fun i => x i * pressure) out

/-- `GunnsFluidUtils::normalizeArray`, core/GunnsFluidUtils.cpp:1140-1163: the array and the result. -/
def normalize (n : Nat) (x : Nat → K) : (Nat → K) × Bool :=
  let minimum : K := dblEps * dblEps
  let y := write n (fun i => if x i < minimum then 0 else x i) x
  let sum := total n y
  if |sum - 1| > fltEps then
    (if sum > 0 then write n (fun i => y i / sum) y else y, true)
  else (y, false)

/-- Mass, mass fractions and result of `GunnsFluidUtils::mixFluidMasses`, core/GunnsFluidUtils.cpp:1182-1209; `none` if
it throws. The temperature is not touched; trace compounds are in Verif/Fluid/Trace.lean. -/
def mixMasses (n : Nat) (outFraction : Nat → K) (outMass : K) (inFraction : Nat → K) (inMass : K) :
    Option (K × (Nat → K) × Bool) :=
  let newMass := inMass + outMass
  if newMass < dblEps then none
  else
    let partialMass := fun i => inMass * inFraction i + outMass * outFraction i
    some (newMass, normalize n (fun i => partialMass i / newMass))

/-- The first index below `n` with this type. -/
def position (n : Nat) (types : Nat → Nat) (t : Nat) : Option Nat :=
  (List.range n).find? (fun j => decide (t = types j))

/-- `GunnsFluidUtils::buildTransformMap`, core/GunnsFluidUtils.cpp:390-453: the entries after the first, with `none` for
a negative number; `none` if it throws. `convert` is `convertToType`, `none` for `NO_FLUID`. -/
def buildMap (nIn : Nat) (inTypes : Nat → Nat) (nOut : Nat) (outTypes : Nat → Nat) (convert : Option Nat) :
    Option (Nat → Option Nat) :=
  let go (convertIndex : Option Nat) : Option (Nat → Option Nat) :=
    let map := fun i => match position nOut outTypes (inTypes i) with
      | some j => some j
      | none => convertIndex
    if (List.range nIn).all (fun i => (map i).isNone) then none else some map
  match convert with
  | none => go none
  | some t => match position nOut outTypes t with
    | none => none
    | some j => go (some j)

/-- The mass fractions that `GunnsFluidUtils::transformState` gives to the fluid, core/GunnsFluidUtils.cpp:479-512; `none`
if it leaves them. -/
def transform (nIn : Nat) (map : Nat → Option Nat) (x : Nat → K) : Option (Nat → K) :=
  let r := loop (fun i (s : (Nat → K) × K) => match map i with
    | some j => (fun k => if k = j then s.1 k + x i else s.1 k, s.2 + x i)
    | none => s) nIn (fun _ => 0, 0)
  if r.2 > 0 then some (fun k => r.1 k / r.2) else none

end Gunns.Mixture
