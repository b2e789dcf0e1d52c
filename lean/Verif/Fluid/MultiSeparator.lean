import Verif.Base.Const
import Mathlib.Logic.Function.Basic
import Mathlib.Algebra.BigOperators.Group.List.Basic

/-!
# The multi-separator

`aspects/fluid/source/GunnsFluidMultiSeparator`: the sources, the buffers and the transport of the separated fluids and trace compounds.  Doubles are
an ordered field.  Fluids are their molar flow rates; temperatures, the conductance of the path and the mixing in nodes are not followed.
-/

namespace Gunns.MultiSep

variable {K : Type*} [Field K] [LinearOrder K] [IsStrictOrderedRing K]

/-- One separated fluid, GunnsFluidMultiSeparator.hh. -/
structure Sep (K : Type*) where
  /-- `mSepIndex` -/
  index : ℕ
  /-- `mSepPort` -/
  port : ℕ
  /-- `mSepFraction` -/
  fraction : K
  /-- `mSepBufferThru` -/
  thru : K
  /-- `mSepBufferExit` -/
  exit : K

/-- `validateSep`, GunnsFluidMultiSeparator.cpp:299-350, for types of the network and nodes of their phases: accepted or not; `tc` is the number of trace compounds. -/
def valid (ports tc : ℕ) (l : List (Sep K)) : Bool :=
  decide (1 ≤ l.length + tc) && decide ((l.map Sep.index).Nodup) &&
    l.all fun s => decide (2 ≤ s.port ∧ s.port ≤ ports - 1) && decide (0 ≤ s.fraction ∧ s.fraction ≤ 1)

/-- The port that the sources take the separated fluids from, GunnsFluidMultiSeparator.cpp:574-578. -/
def down (p0 p1 : K) : ℕ := if p1 ≤ p0 then 1 else 0

/-- The loop of `step` over the source vector, GunnsFluidMultiSeparator.cpp:571-581. -/
def sources (p0 p1 : K) (l : List (Sep K)) (src : ℕ → K) : ℕ → K :=
  l.foldl (fun a s => Function.update (Function.update a (down p0 p1) (a (down p0 p1) - s.thru)) s.port s.thru)
    (Function.update (Function.update src 0 0) 1 0)

/-- The buffers in `step`, GunnsFluidMultiSeparator.cpp:579. -/
def shift (s : Sep K) : Sep K := { s with exit := s.thru }

/-- The buffers in `computeFlows`, GunnsFluidMultiSeparator.cpp:639-641; `x` are the mole fractions of the outflow of the node upstream. -/
def remove (flux : K) (x : ℕ → K) (s : Sep K) : Sep K := { s with thru := s.fraction * |flux| * x s.index }

/-- The loop of `transportFlows` over the exit ports, GunnsFluidMultiSeparator.cpp:686-692: the molar rate of each constituent that the node of each
port is given; `mw` are the molecular weights.  `none` is a read beyond the fluids. -/
def exits (ports : ℕ) (mw : ℕ → K) (l : List (Sep K)) : Option (ℕ → ℕ → K) :=
  if l.length + 2 < ports then none
  else some fun port c =>
    if 2 ≤ port ∧ port < ports then
      match l[port - 2]? with
      | some s => if s.index = c ∧ dblEps < s.exit * mw s.index then s.exit else 0
      | none => 0
    else 0

/-- `mWorkMoleFractions` before they are made fractions, GunnsFluidMultiSeparator.cpp:721-728. -/
def work (l : List (Sep K)) (w : ℕ → K) : ℕ → K := l.foldl (fun a s => Function.update a s.index (a s.index - s.thru)) w

/-- `exitFlux`, GunnsFluidMultiSeparator.cpp:719-728. -/
def exitFlux (l : List (Sep K)) (flux : K) : K := l.foldl (fun a s => a - s.thru) flux

/-- What the node upstream loses of each constituent in `transportFlows`, GunnsFluidMultiSeparator.cpp:694-697. -/
def taken (flux : K) (x : ℕ → K) (c : ℕ) : K := if dblEps < |flux| then |flux| * x c else 0

/-- What the node downstream is given of each constituent, GunnsFluidMultiSeparator.cpp:718-744. -/
def through (flux : K) (x : ℕ → K) (l : List (Sep K)) (c : ℕ) : K :=
  if dblEps < |flux| then
    let e := exitFlux l |flux|
    if l ≠ [] ∧ dblEps < e then e * (work l (fun i => |flux| * x i) c / e) else e * x c
  else 0

/-- A trace compound: `mTcIndex`, `mTcPort` and `mTcFraction`. -/
structure Trace (K : Type*) where
  index : ℕ
  port : ℕ
  fraction : K

/-- The loop over the trace compounds, GunnsFluidMultiSeparator.cpp:706-710: the mass flow rates that are left in the flow and those that the nodes of the
ports are given. -/
def traces (l : List (Trace K)) (w : ℕ → K) : (ℕ → K) × (ℕ → ℕ → K) :=
  l.foldl (fun a t =>
    let r := t.fraction * a.1 t.index
    (Function.update a.1 t.index (a.1 t.index - r),
      Function.update a.2 t.port (Function.update (a.2 t.port) t.index (a.2 t.port t.index + r)))) (w, fun _ _ => 0)

/-- One pass: the potentials, the flux and the mole fractions of the flow. -/
structure Pass (K : Type*) where
  flux : K
  x : ℕ → K

/-- The buffers over a pass: `step` and then `computeFlows`. -/
def pass (l : List (Sep K)) (a : Pass K) : List (Sep K) := l.map fun s => remove a.flux a.x (shift s)

/-- The buffers after the passes `0, …, n - 1`. -/
def run (a : ℕ → Pass K) (l : List (Sep K)) : ℕ → List (Sep K)
  | 0 => l
  | n + 1 => pass (run a l n) (a n)

end Gunns.MultiSep
