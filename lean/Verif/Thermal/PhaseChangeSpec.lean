import Verif.Thermal.PhaseChange

/-!
# Specification of the thermal phase-change battery
-/

namespace Gunns.Thermal.Spec

open Gunns.Thermal

variable {K : Type _} [Field K] [LinearOrder K] [IsStrictOrderedRing K]

/-- The three states of the material. -/
inductive Phase
  | cold
  | mixed
  | hot
deriving DecidableEq

/-- All cold, all hot, or both. -/
def phase (s : Pcb K) : Phase :=
  if s.frac = 0 then .cold else if s.frac = 1 then .hot else .mixed

/-- Heat content in joules, counted from all cold material at the phase-change temperature: mass and
structure are heated below and above that temperature, and at that temperature a kilogram takes
`1000 heat` joules to change phase. -/
def content (s : Pcb K) : K :=
  match phase s with
  | .cold => (s.struct + 1000 * s.mass * s.coldCp) * (s.temp - s.tpc)
  | .mixed => 1000 * s.mass * s.heat * s.frac
  | .hot => 1000 * s.mass * s.heat + (s.struct + 1000 * s.mass * s.hotCp) * (s.temp - s.tpc)

/-- A battery as `initialize` accepts it, but with the mass not below its floor. -/
structure Valid (s : Pcb K) : Prop where
  heat : dblEps ≤ s.heat
  hotCp : 0 < s.hotCp
  coldCp : 0 < s.coldCp
  struct : 0 < s.struct
  mass : 3 * dblEps ≤ s.mass
  frac0 : 0 ≤ s.frac
  frac1 : s.frac ≤ 1
  level : s.pot = s.temp

/-- What is given to the battery before a step of the network. -/
structure Input (K : Type _) where
  /-- external heat fluxes -/
  ext : Nat → K
  /-- is the port overridden? -/
  override : Bool
  /-- leak malfunction -/
  leakFlag : Bool
  leakRate : K
  /-- time step -/
  dt : K
  /-- the solution of the network for the node -/
  p : K

/-- One step with its input. -/
def feed (s : Pcb K) (i : Input K) : Pcb K :=
  Pcb.cycle i.dt i.p { s with
    ext := i.ext
    override := i.override
    leakFlag := i.leakFlag
    leakRate := i.leakRate }

/-- The states of a run, the first one included. -/
def states (s : Pcb K) : List (Input K) → List (Pcb K)
  | [] => [s]
  | i :: l => s :: states (feed s i) l

/-- The last state of a run. -/
def final (s : Pcb K) (l : List (Input K)) : Pcb K := l.foldl feed s

/-- Heat put into the battery in a run. -/
def heatIn (s : Pcb K) : List (Input K) → K
  | [] => 0
  | i :: l => (feed s i).power * i.dt + heatIn (feed s i) l

/-- Mass leaked in a run. -/
def leaked (s : Pcb K) : List (Input K) → K
  | [] => 0
  | i :: l => (feed s i).leak * i.dt + leaked (feed s i) l

end Gunns.Thermal.Spec
