import Verif.Math.Interp
import Verif.Elect.SwitchUtil
import Mathlib.Logic.Function.Basic

/-!
# The selector

`aspects/electrical/Switch/GunnsElectSelector`: one port, number 0, is joined to one of the others by a number that the user sets.
Doubles are an ordered field; the matrix is the array of the code, of which only the first `n * n` places exist.  The user's port command
(GunnsBasicLink::processUserPortCommand) is not followed.
-/

namespace Gunns.Select

open Gunns.Interp

variable {K : Type*} [Field K] [LinearOrder K] [IsStrictOrderedRing K]

/-- The link, GunnsElectSelector.hh:152-159. -/
structure Link (K : Type*) where
  /-- `mNumPorts` -/
  n : ℕ
  /-- `mSelector` -/
  sel : ℤ
  /-- `mDefaultConductance` -/
  dflt : K
  /-- `mMalfBlockageFlag`, `mMalfBlockageValue` -/
  block : Option K
  /-- `mEffectiveConductance` -/
  eff : K
  /-- `mLastConnectedPort` -/
  last : ℤ
  /-- `mSystemAdmittance` -/
  sys : K
  /-- `mAdmittanceMatrix` -/
  mat : ℕ → K
  /-- `mAdmittanceUpdate` -/
  update : Bool
  /-- `mPotentialDrop` -/
  drop : K
  /-- `mFlux` -/
  flux : K
  /-- `mPower` -/
  power : K

/-- `validate`, GunnsElectSelector.cpp:207-228: accepted or not. -/
def valid (n : ℕ) (sel : ℤ) (g : K) : Bool := decide (2 ≤ n ∧ 0 ≤ g ∧ 0 ≤ sel ∧ sel ≤ (n : ℤ) - 1)

/-- The link after `initialize`, GunnsElectSelector.cpp:157-195. -/
def start (n : ℕ) (sel : ℤ) (g : K) (block : Option K) : Link K where
  n := n
  sel := sel
  dflt := g
  block := block
  eff := 0
  last := -1
  sys := 0
  mat := fun _ => 0
  update := false
  drop := 0
  flux := 0
  power := 0

/-- `getConnectedPort`, GunnsElectSelector.cpp:351-358. -/
def port (l : Link K) : ℕ := if l.sel < 1 ∨ (l.n : ℤ) ≤ l.sel then 0 else l.sel.toNat

/-- `mEffectiveConductance` in `step`, GunnsElectSelector.cpp:257-270. -/
def effective (l : Link K) : K :=
  let g := match l.block with
    | some b => l.dflt * limitRange 0 (1 - b) 1
    | none => l.dflt
  if g < 100 * dblEps then 0 else min g SwUtil.condLimit

/-- `clearAdmittance`, GunnsElectSelector.cpp:279-288. -/
def clear (l : Link K) : Link K :=
  { l with
    mat := if (port l : ℤ) ≠ l.last then fun _ => 0 else l.mat
    last := (port l : ℤ) }

/-- The four writes to the matrix in `buildAdmittance`, GunnsElectSelector.cpp:306-309. -/
def writes (n p : ℕ) (g : K) (m : ℕ → K) : ℕ → K :=
  Function.update (Function.update (Function.update (Function.update m 0 g) p (-g)) (p * n) (-g)) (p * n + p) g

/-- `buildAdmittance`, GunnsElectSelector.cpp:293-312. -/
def build (l : Link K) : Link K :=
  let g := if 0 < port l then l.eff else 0
  if 0 < |l.mat 0 - g| then
    { l with
      sys := g
      mat := writes l.n (port l) g l.mat
      update := true }
  else { l with sys := g }

/-- `step`, GunnsElectSelector.cpp:250-274. -/
def step (l : Link K) : Link K := build (clear { l with eff := effective l })

/-- `computeFlux`, GunnsElectSelector.cpp:332-343. -/
def flux (v0 vp drop a0 : K) : K := if |drop| < max v0 vp * (100 * dblEps) then 0 else drop * a0

/-- `computeFlows`, GunnsElectSelector.cpp:319-327; `v` gives the potentials of the ports. -/
def flows (v : ℕ → K) (l : Link K) : Link K :=
  let d := v 0 - v (port l)
  let f := flux (v 0) (v (port l)) d (l.mat 0)
  { l with
    drop := d
    flux := f
    power := -f * d }

/-- What happens to the link between construction and use. -/
inductive Event (K : Type*) where
  /-- a pass of the solver -/
  | step
  /-- `setSelector` -/
  | select (i : ℤ)
  /-- `setDefaultConductance` -/
  | conductance (g : K)
  /-- the blockage -/
  | block (b : Option K)
  /-- the network asks, and with that sets `mAdmittanceUpdate` back, GunnsBasicLink.cpp:459-464 -/
  | taken
  /-- `computeFlows` -/
  | flows (v : ℕ → K)
  /-- `restartModel`, GunnsElectSelector.cpp:233-243 -/
  | restart

/-- One event. -/
def handle (l : Link K) : Event K → Link K
  | .step => step l
  | .select i => { l with sel := i }
  | .conductance g => { l with dflt := g }
  | .block b => { l with block := b }
  | .taken => { l with update := false }
  | .flows v => flows v l
  | .restart => { l with
      eff := 0
      last := -1
      sys := 0 }

end Gunns.Select
