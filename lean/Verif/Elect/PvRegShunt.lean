import Verif.Elect.PvRegConv

/-!
# The shunting regulator of the solar array

Model of `GunnsElectPvRegShunt` (`aspects/electrical/SolarArray/GunnsElectPvRegShunt.cpp` and `.hh`, here Shunt).

Simplifications: doubles are elements of an ordered field.  A string is what the regulator asks of it, so that both models
of strings fit; it is found by the numbers of its section and of itself.  Only `OFF` and `REG` are ever assigned to the
state, so it is a flag here.  The loop over the strings goes over the load order, which has as many entries as the array has
strings by `validate`.  The cast to float and the optional sensors are functions given to each call.  The flags
`mAdmittanceUpdate` and the port commands are left out.
-/

namespace Gunns.Pv

open Gunns

variable {K : Type} [Field K] [LinearOrder K]

/-- What the regulator asks of a string and leaves in it. -/
structure RegString (K : Type) where
  atVoltage : K → Load K
  atConductance : K → Load K
  term : Load K
  shunted : Bool

/-- A string of the first model, when the divisions of `loadAtConductance` are defined. -/
def PvString.forReg (s : PvString K) (term : Load K) (shunted : Bool) : RegString K :=
  ⟨s.loadAtVoltage, fun g => (s.loadAtConductance g).getD term, term, shunted⟩

/-- The values of the regulator and the strings of its array. -/
structure RegShunt (K : Type) where
  outG : K
  shuntG : K
  limitG : K
  order : List (ℕ × ℕ)
  priority : ℕ
  setpoint : K
  bias : Option K
  minPower : K
  powered : Bool
  enabled : Bool
  resetCmd : Bool
  trips : RegTrips K
  strings : ℕ × ℕ → RegString K
  common : Bool
  reg : Bool
  occurred : Bool
  vreg : K
  inG : K
  inPower : K
  shuntPower : K
  bulk : K
  maxCurrent : K
  adm0 : K
  adm3 : K
  src1 : K
  flux : K
  power : K
  outPower : K
  waste : K

/-- `validate`, Shunt.cpp:345-397, for a load order that is not empty and an array with the given numbers of strings in its
sections: `false` is an exception. -/
def orderValid (sections : List ℕ) (order : List (ℕ × ℕ)) : Bool :=
  decide (order.length = sections.sum) &&
    (List.range order.length).all fun i =>
      match order[i]? with
      | none => true
      | some e => (match sections[e.1]? with
          | none => false
          | some n => decide (e.2 < n)) &&
        (List.range order.length).all fun j => !(decide (i < j) && decide (order[j]? = some e))

/-- The load order that is made when none is given, Shunt.cpp:279-285. -/
def defaultOrder (sections : List ℕ) : List (ℕ × ℕ) :=
  (List.range sections.length).flatMap fun i => (List.range (sections.getD i 0)).map fun j => (i, j)

/-- `updateRegulatedVoltage`, Shunt.hh:397-404. -/
def RegShunt.regulated (r : RegShunt K) : K :=
  max (match r.bias with
    | none => r.setpoint
    | some b => r.setpoint + b) dblEps

/-- The change of one string. -/
def setString (s : ℕ × ℕ → RegString K) (x : ℕ × ℕ) (t : RegString K) : ℕ × ℕ → RegString K := fun y => if y = x then t else s y

/-- The loop of `updateMaxOutputs`, Shunt.cpp:464-472: the strings and the current. -/
def loadAll (vreg : K) (l : List (ℕ × ℕ)) (s : ℕ × ℕ → RegString K) : (ℕ × ℕ → RegString K) × K :=
  l.foldl (fun a x => (setString a.1 x { a.1 x with
      term := (a.1 x).atVoltage vreg
      shunted := false }, a.2 + ((a.1 x).atVoltage vreg).current)) (s, 0)

/-- `updateMaxOutputs`, Shunt.cpp:458-473, with the array's sections; `none` is a division by zero within the array. -/
def RegShunt.maxOut (a : ArrayCurve K) (sections : List ℕ) (r : RegShunt K) : Option (RegShunt K) :=
  match a.predictLoad r.vreg with
  | none => none
  | some (p, g) => some { r with
      bulk := p
      inG := g
      strings := (loadAll r.vreg (defaultOrder sections) r.strings).1
      maxCurrent := (loadAll r.vreg (defaultOrder sections) r.strings).2 }

/-- `isOperating`, Shunt.hh:447-450. -/
def RegShunt.operating (r : RegShunt K) : Bool := r.powered && r.enabled && !r.trips.isTripped

/-- `updateInitialState`, Shunt.cpp:478-496. -/
def RegShunt.initial (a : ArrayCurve K) (r : RegShunt K) : RegShunt K :=
  let r : RegShunt K := if r.resetCmd || !r.powered then { r with
      trips := r.trips.reset
      resetCmd := false } else r
  if !r.operating || decide (a.mpp.power < dblEps) || decide (r.bulk < r.minPower) then { r with
      occurred := false
      reg := false }
  else { r with
      occurred := !r.reg
      reg := true }

/-- `minorStep`, Shunt.cpp:445-451 with 503-531 and Shunt.hh:411-421. -/
def RegShunt.minor (r : RegShunt K) : RegShunt K :=
  { r with
    adm0 := r.inG
    adm3 := if r.reg then r.outG else 1 / r.limitG
    src1 := if r.reg then r.vreg * r.outG else 0 }

/-- `step`, Shunt.cpp:424-433. -/
def RegShunt.step (a : ArrayCurve K) (sections : List ℕ) (r : RegShunt K) : Option (RegShunt K) :=
  match RegShunt.maxOut a sections { r with vreg := r.regulated } with
  | none => none
  | some r => some (r.initial a).minor

/-- What the loop of `loadArray` changes: input conductance, input power, shunt power and the strings. -/
structure Loading (K : Type) where
  inG : K
  inPower : K
  shuntPower : K
  strings : ℕ × ℕ → RegString K

/-- One pass of the loop of `loadArray`, Shunt.cpp:706-730. -/
def Loading.one (vreg shuntG power : K) (a : Loading K) (x : ℕ × ℕ) : Loading K :=
  if a.inPower ≥ power ∨ power < 0 then
    { a with
      shuntPower := a.shuntPower + ((a.strings x).atConductance shuntG).power
      strings := setString a.strings x { a.strings x with
        term := (a.strings x).atConductance shuntG
        shunted := true } }
  else
    let t : RegString K := if (a.strings x).shunted then { a.strings x with
        term := (a.strings x).atVoltage vreg
        shunted := false } else a.strings x
    { a with
      inG := a.inG + t.term.conductance
      inPower := a.inPower + t.term.power
      strings := setString a.strings x t }

/-- `loadArray`, Shunt.cpp:700-732. -/
def RegShunt.loadArray (r : RegShunt K) (power : K) : RegShunt K :=
  let a := r.order.foldl (Loading.one r.vreg r.shuntG power) ⟨0, 0, 0, r.strings⟩
  { r with
    inG := a.inG
    inPower := a.inPower
    shuntPower := a.shuntPower
    strings := a.strings }

/-- The power that the output takes when regulating, Shunt.cpp:569-570. -/
def RegShunt.demand (r : RegShunt K) (v1 : K) : K := r.vreg * r.adm3 * (r.vreg - v1)

/-- The changes of state, Shunt.cpp:547-606. -/
def RegShunt.judge (r : RegShunt K) (v1 : K) (n : ℕ) : SolRes × RegShunt K :=
  if r.operating = true then
    let b : SolRes × RegShunt K := if r.reg = true ∧ v1 > r.vreg then (.reject, { r with reg := false }) else (.confirm, r)
    if n > 0 then
      if b.2.reg = true then
        let q := b.2.loadArray (b.2.demand v1)
        if q.inPower < b.2.demand v1 ∧ q.bulk < b.2.demand v1 then
          if n < q.priority then (.delay, q) else (.reject, { q with reg := false })
        else (b.1, q)
      else if b.2.bulk ≥ b.2.minPower ∧ b.2.occurred = false then
        if n < b.2.priority then (.delay, b.2)
        else (.reject, { b.2 with
          reg := true
          occurred := true })
      else (b.1, b.2.loadArray (-1))
    else b
  else (.confirm, r)

/-- `computeFlux`, Shunt.hh:426-440. -/
def RegShunt.fluxAt (r : RegShunt K) (v1 : K) : K := if r.reg then (r.vreg - v1) * r.adm3 else 0

/-- `confirmSolutionAcceptable`, Shunt.cpp:541-655. -/
def RegShunt.confirm (r : RegShunt K) (s : Sense K) (v1 : K) (n : ℕ) : SolRes × RegShunt K :=
  let j := r.judge v1 n
  let k : SolRes × RegShunt K :=
    if n > 0 ∧ j.1 ≠ .reject then
      let q : RegShunt K := { j.2 with flux := j.2.fluxAt v1 }
      let t := (q.strings (q.order.headD (0, 0))).term
      if q.operating = true then
        let c := q.trips.check j.1 (s.vin t.voltage) (s.iin t.current) (s.vout v1) (s.iout q.flux) n
        (c.2.1, { q with
          trips := c.1
          reg := if c.2.2 = true then false else q.reg })
      else (j.1, q)
    else j
  (k.1, { k.2 with common := if k.2.operating = true then !k.2.reg else k.2.common })

/-- `computeFlows`, Shunt.cpp:662-691. -/
def RegShunt.flows (r : RegShunt K) (v1 : K) : RegShunt K :=
  let q : RegShunt K := if r.reg = true then { r with
      power := -r.flux * (r.vreg - v1)
      outPower := v1 * r.flux }
    else { r with
      power := 0
      outPower := 0
      inPower := 0 }
  { q with waste := q.shuntPower - q.power }

end Gunns.Pv
