import Verif.Fluid.Saturation

/-!
# The liquid water sensor

`/repo/aspects/fluid/conductor/GunnsFluidLiquidWaterSensor.cpp`, with the saturation curves of
`Verif.Fluid.Saturation`.  Doubles are real numbers.

Not modelled: the fluid conductor the sensor is built on; the partial pressure of water and the
temperature of the fluid at its first port are the inputs.
-/

namespace Gunns.LiquidWater

open Gunns.Saturation

/-- The outputs, GunnsFluidLiquidWaterSensor.cpp:149-152. -/
structure State where
  present : Prop
  humidity : ℝ
  dewPoint : ℝ
  saturation : ℝ

/-- After `initialize`, GunnsFluidLiquidWaterSensor.cpp:149-152. -/
noncomputable def initial : State := ⟨False, 0, 0, 0⟩

/-- `updateState`, GunnsFluidLiquidWaterSensor.cpp:195-210, at the partial pressure `pp` and the
temperature `t`. -/
noncomputable def update (f : Curve) (pp t : ℝ) (s : State) : State :=
  let sat := pressure f t
  let dew := temperature f pp
  let rh := if dblEps < sat then pp / sat else s.humidity
  ⟨1 ≤ rh, rh, dew, sat⟩

end Gunns.LiquidWater
