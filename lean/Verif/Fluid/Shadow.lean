import Verif.Fluid.Mixture

/-!
# The fluid shadow: a node of another network in this one

`core/GunnsFluidShadow`: the inputs from the other simulation, the outputs to it and the switch between the two.  Doubles are an ordered field.  Of the node
only the mass fractions are followed; its pressure and temperature are written as they come in.
-/

namespace Gunns.Shadow

open Gunns.Mixture

variable {K : Type*} [Field K] [LinearOrder K] [IsStrictOrderedRing K]

/-- `GunnsFluidUtils::MixtureDataType`, core/GunnsFluidUtils.hh. -/
inductive Kind
  | mass
  | mole
  | pressure
  deriving DecidableEq

/-- The conversion of the inputs in place, GunnsFluidShadow.cpp:267-282. -/
def toMass (t : Kind) (n : Nat) (mw m : Nat → K) : Nat → K :=
  match t with
  | .mass => m
  | .mole => moleToMass n mw m m
  | .pressure => moleToMass n mw (pressureToMole n m m) (pressureToMole n m m)

/-- The conversion of the outputs in place, GunnsFluidShadow.cpp:319-335; `p` is `mOutputPressure`. -/
def toOut (t : Kind) (n : Nat) (mw : Nat → K) (p : K) (m : Nat → K) : Nat → K :=
  match t with
  | .mass => m
  | .mole => massToMole n mw m m
  | .pressure => moleToPressure n (massToMole n mw m m) p (massToMole n mw m m)

/-- The link, GunnsFluidShadow.hh:150-180, with the mass fractions of the node of port 1. -/
structure Link (K : Type*) where
  /-- `mFirstPassFlag` -/
  first : Bool
  /-- `mShadowIsActive` -/
  active : Bool
  /-- `mInputPressure` -/
  pressure : K
  /-- `mInputMixture` -/
  mixture : Nat → K
  /-- `mSourcePressure` -/
  source : K
  /-- `mEffectiveConductivity` -/
  cond : K
  /-- the mass fractions of the node -/
  node : Nat → K

/-- `setInputs`, GunnsFluidShadow.cpp:399-416; the null pointer is not followed. -/
def setInputs (n : Nat) (p : K) (x : Nat → K) (l : Link K) : Link K :=
  { l with
    pressure := p
    mixture := write n x l.mixture }

/-- `processInputs`, GunnsFluidShadow.cpp:256-303; `mine` is whether `mShadowActiveControl` is `mControlTarget`, and `map` is `mTransformMap`. -/
def processInputs (t : Kind) (n : Nat) (mw : Nat → K) (map : Nat → Option Nat) (mine : Bool) (l : Link K) : Link K :=
  if l.first then
    let m := toMass t n mw l.mixture
    { l with
      active := mine
      mixture := m
      source := if mine then l.pressure else l.source
      node := if mine then (transform n map m).getD l.node else l.node }
  else { l with
    active := false
    first := true }

/-- `updateState`, GunnsFluidShadow.cpp:343-356. -/
def updateState (most : K) (l : Link K) : Link K := { l with cond := if l.active then most else 0 }

end Gunns.Shadow
