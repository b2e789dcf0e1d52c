import Verif.Math.LambertW

/-!
# The photovoltaic cell of the second string model

Model of `GunnsElectPvCellEquivCircuit2` (`aspects/electrical/SolarArray/GunnsElectPvString2.cpp`) and its base class
(`GunnsElectPvString.cpp`, here Base).

Simplifications: doubles are real numbers.  The exceptions are `thrown`; a division by zero in `derive` or
`computeCurrent` is `nan` (in the code, infinite or not a number, or an exception where a range check catches it).  The
functions that the code calls for Lambert's W are parameters, so that what is due to the circuit can be told from what is due to
them; the code is `currentFast`, `voltageFast`, `deriveFast`, with the functions of C75.  The name is left out.
-/

namespace Gunns.Pv

open Real Gunns.Lambert

/-- What a function does. -/
inductive Res (α : Type) where
  | thrown
  | nan
  | val (a : α)

/-- The attributes, GunnsElectPvString.hh:102-118, in the order of `clear` (Base:238-257). -/
structure Cell where
  il : ℝ
  rsh : ℝ
  rs : ℝ
  nVt : ℝ
  i0 : ℝ
  fill : ℝ
  eff : ℝ
  voc : ℝ
  isc : ℝ
  vmp : ℝ
  imp : ℝ
  flux : ℝ
  ideality : ℝ
  temp : ℝ
  dVoc : ℝ
  dIsc : ℝ
  area : ℝ

/-- `clear`, Base:238-257. -/
def Cell.dark : Cell := ⟨0, 0, 0, 0, 0, 0, 0, 0, 0, 0, 0, 0, 0, 0, 0, 0, 0⟩

/-- `mBoltzmannOverCharge`, Base:165, with the constants of UnitConversion.cpp:1186 and 1258. -/
noncomputable def kOverQ : ℝ := 1.3806504e-23 / 1.602176487e-19

/-- The operands of `derive`, GunnsElectPvString2.cpp:173-179, after `mNVt` is set: the denominator common to B and C. -/
def Cell.den (c : Cell) : ℝ := c.vmp * c.isc + c.voc * (c.imp - c.isc)

/-- B, GunnsElectPvString2.cpp:174-175. -/
noncomputable def Cell.opB (c : Cell) : ℝ := -c.vmp * (2 * c.imp - c.isc) / c.den

/-- C, GunnsElectPvString2.cpp:176-178. -/
noncomputable def Cell.opC (c : Cell) : ℝ := -(2 * c.vmp - c.voc) / c.nVt + (c.vmp * c.isc - c.voc * c.imp) / c.den

/-- D, GunnsElectPvString2.cpp:179. -/
noncomputable def Cell.opD (c : Cell) : ℝ := (c.vmp - c.voc) / c.nVt

/-- The denominator of the shunt resistance, GunnsElectPvString2.cpp:201. -/
def Cell.denSh (c : Cell) (rs : ℝ) : ℝ := (c.vmp - c.imp * rs) * (c.isc - c.imp) - c.nVt * c.imp

/-- The shunt resistance, GunnsElectPvString2.cpp:200-201. -/
noncomputable def Cell.shunt (c : Cell) (rs : ℝ) : ℝ :=
  (c.vmp - c.imp * rs) * (c.vmp - rs * (c.isc - c.imp) - c.nVt) / c.denSh rs

/-- The saturation current, GunnsElectPvString2.cpp:214. -/
noncomputable def Cell.saturation (c : Cell) (rs rsh : ℝ) : ℝ := ((rsh + rs) * c.isc - c.voc) / (rsh * exp (c.voc / c.nVt))

/-- `derive` from the series resistance on, GunnsElectPvString2.cpp:192-222. -/
noncomputable def Cell.deriveFrom (c : Cell) (rs : ℝ) : Res Cell :=
  if rs ≤ 0 then .thrown
  else if c.denSh rs = 0 then .nan
  else if c.shunt rs ≤ 0 then .thrown
  else if ¬(-500 ≤ c.voc / c.nVt ∧ c.voc / c.nVt ≤ 500) then .thrown
  else if c.saturation rs (c.shunt rs) ≤ 0 then .thrown
  else .val { c with
    rs := rs
    rsh := c.shunt rs
    i0 := c.saturation rs (c.shunt rs)
    il := (c.shunt rs + rs) * c.isc / c.shunt rs }

/-- `derive` after `mNVt` is set, GunnsElectPvString2.cpp:172-223. -/
noncomputable def Cell.deriveAt (w1 : ℝ → Out) (c : Cell) : Res Cell :=
  if c.nVt = 0 ∨ c.imp = 0 ∨ c.den = 0 then .nan
  else if ¬(-500 ≤ c.opC ∧ c.opC ≤ 500) then .thrown
  else match w1 (c.opB * exp c.opC) with
    | .thrown => .thrown
    | .nan => .nan
    | .val w => c.deriveFrom (c.nVt / c.imp * (w - c.opD - c.opC))

/-- `derive`, GunnsElectPvString2.cpp:167-223. -/
noncomputable def Cell.derive (w1 : ℝ → Out) (c : Cell) : Res Cell :=
  Cell.deriveAt w1 { c with nVt := c.ideality * kOverQ * c.temp }

/-- `computeEfficiency`, GunnsElectPvString2.cpp:82-95. -/
noncomputable def Cell.efficiency (c : Cell) : Cell :=
  { c with
    eff := if c.area > 0 ∧ c.flux > 0 then c.vmp * c.imp / (c.area * c.flux) else 0
    fill := if c.voc > 0 ∧ c.isc > 0 then c.vmp * c.imp / (c.voc * c.isc) else 0 }

/-- The cell at another temperature before `derive`, GunnsElectPvString2.cpp:136-147, given the copy `c` of the reference. -/
noncomputable def Cell.warmed (ref c : Cell) (ratio : ℝ) : Cell :=
  { c with
    voc := ref.voc + (c.temp - ref.temp) * c.dVoc
    isc := ref.isc * ratio + (c.temp - ref.temp) * c.dIsc
    vmp := ref.vmp * (ref.voc + (c.temp - ref.temp) * c.dVoc) / ref.voc
    imp := ref.imp * ratio * (ref.isc * ratio + (c.temp - ref.temp) * c.dIsc) / (ref.isc * ratio) }

/-- `update`, GunnsElectPvString2.cpp:108-157. -/
noncomputable def Cell.update (w1 : ℝ → Out) (ref : Cell) (temperature photoFlux degradation : ℝ) : Res Cell :=
  let c : Cell := { ref with
    temp := temperature
    flux := photoFlux }
  let ratio := photoFlux * (1 - degradation) / ref.flux
  if ratio > dblEps then
    if temperature = ref.temp then
      .val (Cell.efficiency { c with
        isc := ref.isc * ratio
        imp := ref.imp * ratio
        rs := ref.rs / ratio
        rsh := ref.rsh / ratio
        i0 := ref.i0 * ratio
        il := ref.il * ratio })
    else
      let c1 := Cell.warmed ref c ratio
      if c1.voc > dblEps ∧ c1.isc > dblEps then
        match c1.derive w1 with
        | .thrown => .thrown
        | .nan => .nan
        | .val c2 => .val c2.efficiency
      else .val Cell.dark.efficiency
  else .val Cell.dark.efficiency

/-- The operand of the exponential in `computeCurrent`, GunnsElectPvString2.cpp:243-244. -/
noncomputable def Cell.zexpI (c : Cell) (v : ℝ) : ℝ :=
  v / c.nVt * (1 - c.rs / (c.rs + c.rsh)) + (c.i0 + c.il) * c.rs / c.nVt / (1 + c.rs / c.rsh)

/-- The operand of W in `computeCurrent`, GunnsElectPvString2.cpp:249. -/
noncomputable def Cell.zI (c : Cell) (v : ℝ) : ℝ := c.i0 * c.rs / c.nVt / (1 + c.rs / c.rsh) * exp (c.zexpI v)

/-- The current from W, GunnsElectPvString2.cpp:252. -/
noncomputable def Cell.currentOf (c : Cell) (v w : ℝ) : ℝ :=
  (c.i0 + c.il - v / c.rsh) / (1 + c.rs / c.rsh) - w * c.nVt / c.rs

/-- `computeCurrent`, GunnsElectPvString2.cpp:237-261. -/
noncomputable def Cell.current (w0 : ℝ → Out) (c : Cell) (v : ℝ) : Res ℝ :=
  if v ≤ dblEps then .val c.isc
  else if v < c.voc then
    if c.nVt = 0 ∨ c.rs = 0 ∨ c.rsh = 0 ∨ c.rs + c.rsh = 0 then .nan
    else if ¬(-500 ≤ c.zexpI v ∧ c.zexpI v ≤ 500) then .thrown
    else match w0 (c.zI v) with
      | .thrown => .thrown
      | .nan => .nan
      | .val w => .val (c.currentOf v w)
  else .val 0

/-- The operand of the exponential in `computeVoltage`, GunnsElectPvString2.cpp:281. -/
noncomputable def Cell.zexpV (c : Cell) (i : ℝ) : ℝ := (c.i0 + c.il - i) * c.rsh / c.nVt

/-- The operand of W in `computeVoltage`, GunnsElectPvString2.cpp:286. -/
noncomputable def Cell.zV (c : Cell) (i : ℝ) : ℝ := c.i0 * c.rsh / c.nVt * exp (c.zexpV i)

/-- The voltage from W, GunnsElectPvString2.cpp:289. -/
noncomputable def Cell.voltageOf (c : Cell) (i w : ℝ) : ℝ := c.rsh * (c.i0 + c.il) - i * (c.rs + c.rsh) - w * c.nVt

/-- `computeVoltage`, GunnsElectPvString2.cpp:275-298. -/
noncomputable def Cell.voltage (w0 : ℝ → Out) (c : Cell) (i : ℝ) : Res ℝ :=
  if i ≤ dblEps then .val c.voc
  else if i < c.isc then
    if c.nVt = 0 then .nan
    else if ¬(-500 ≤ c.zexpV i ∧ c.zexpV i ≤ 500) then .thrown
    else match w0 (c.zV i) with
      | .thrown => .thrown
      | .nan => .nan
      | .val w => .val (c.voltageOf i w)
  else .val 0

/-- The code: `computeCurrent` with `fastSolveW0`. -/
noncomputable def Cell.currentFast : Cell → ℝ → Res ℝ := Cell.current fastW0

/-- The code: `computeVoltage` with `fastSolveW0`. -/
noncomputable def Cell.voltageFast : Cell → ℝ → Res ℝ := Cell.voltage fastW0

/-- The code: `derive` with `fastSolveW1`. -/
noncomputable def Cell.deriveFast : Cell → Res Cell := Cell.derive fastW1

/-- The code: `update` with `fastSolveW1`. -/
noncomputable def Cell.updateFast : Cell → ℝ → ℝ → ℝ → Res Cell := Cell.update fastW1

end Gunns.Pv
