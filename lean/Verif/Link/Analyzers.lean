import Verif.Base.Const
import Mathlib.Algebra.BigOperators.Group.List.Basic

/-!
# The spotters of a network: island analyzers and the flow integrator

`core/GunnsBasicIslandAnalyzer`, `core/GunnsFluidIslandAnalyzer` and `core/GunnsFluidFlowIntegrator`.  Doubles are an ordered field.  What is read
from the nodes is a function of the number of the node; of the trace compounds what is done is that done with the constituents.
-/

namespace Gunns.Spot

variable {K : Type*} [Field K] [LinearOrder K] [IsStrictOrderedRing K]

/-- The start of a search, `1.0E15`, GunnsBasicIslandAnalyzer.cpp:218-219. -/
def far : K := 10 ^ 15

/-- An extreme and the number of its node. -/
structure Extreme (K : Type*) where
  value : K
  node : ℤ
  deriving DecidableEq

/-- The search for the highest over an island, GunnsBasicIslandAnalyzer.cpp:233-236. -/
def hi (x : ℕ → K) (e : Extreme K) (n : ℕ) : Extreme K := if e.value ≤ x n then ⟨x n, n⟩ else e

/-- The search for the lowest, GunnsBasicIslandAnalyzer.cpp:237-240. -/
def lo (x : ℕ → K) (e : Extreme K) (n : ℕ) : Extreme K := if x n ≤ e.value then ⟨x n, n⟩ else e

/-- A sum over an island as the loop makes it. -/
def total (x : ℕ → K) (a : K) (n : ℕ) : K := a + x n

/-- The basic analyzer, GunnsBasicIslandAnalyzer.hh. -/
structure Report (K : Type*) where
  /-- `mIslandNodes` -/
  member : ℕ → Bool
  /-- `mIslandSize` -/
  size : ℕ
  /-- `mIslandNetFlux` -/
  netFlux : K
  /-- `mHiPotential`, `mHiPotentialNode` -/
  high : Extreme K
  /-- `mLoPotential`, `mLoPotentialNode` -/
  low : Extreme K

/-- `resetStateData`, GunnsBasicIslandAnalyzer.cpp:189-201. -/
def reset : Report K := ⟨fun _ => false, 0, 0, ⟨0, -1⟩, ⟨0, -1⟩⟩

/-- One node in the loop of `analyze`, GunnsBasicIslandAnalyzer.cpp:222-241. -/
def visit (flux p : ℕ → K) (r : Report K) (n : ℕ) : Report K :=
  { r with
    member := fun m => if m = n then true else r.member m
    netFlux := total flux r.netFlux n
    high := hi p r.high n
    low := lo p r.low n }

/-- `stepPostSolver` with `analyze`, GunnsBasicIslandAnalyzer.cpp:178-243; `island` is that of the attached node, `none` if it has none. -/
def analyze (numNodes : ℕ) (attached : ℤ) (island : Option (List ℕ)) (flux p : ℕ → K) : Report K :=
  if -1 < attached ∧ attached < (numNodes : ℤ) - 1 then
    match island with
    | none => reset
    | some l => l.foldl (visit flux p) { (reset : Report K) with
        size := l.length
        high := ⟨-far, -1⟩
        low := ⟨far, -1⟩ }
  else reset

/-- The fluid analyzer, GunnsFluidIslandAnalyzer.hh. -/
structure Fluid (K : Type*) where
  /-- `mIslandNodes` -/
  member : ℕ → Bool
  /-- `mIslandSize` -/
  size : ℕ
  /-- `mIslandVolume` -/
  volume : K
  /-- `mIslandMass` -/
  mass : K
  /-- `mIslandEnergy` -/
  energy : K
  /-- `mHiPressure`, `mLoPressure`, `mHiTemperature`, `mLoTemperature` and their nodes -/
  hiP : Extreme K
  loP : Extreme K
  hiT : Extreme K
  loT : Extreme K
  /-- `mIslandConstituentMass` -/
  parts : ℕ → K
  /-- `mHiMoleFraction`, `mLoMoleFraction` and their nodes -/
  hiX : ℕ → Extreme K
  loX : ℕ → Extreme K

/-- What is read from a node. -/
structure Node (K : Type*) where
  volume : K
  mass : K
  enthalpy : K
  pressure : K
  temperature : K
  massFrac : ℕ → K
  moleFrac : ℕ → K

/-- `GunnsFluidIslandAnalyzer::resetStateData`, GunnsFluidIslandAnalyzer.cpp:235-274. -/
def resetFluid : Fluid K :=
  ⟨fun _ => false, 0, 0, 0, 0, ⟨0, -1⟩, ⟨0, -1⟩, ⟨0, -1⟩, ⟨0, -1⟩, fun _ => 0, fun _ => ⟨0, -1⟩, fun _ => ⟨0, -1⟩⟩

/-- One node in the loop of `GunnsFluidIslandAnalyzer::analyze`, GunnsFluidIslandAnalyzer.cpp:312-380. -/
def visitFluid (x : ℕ → Node K) (r : Fluid K) (n : ℕ) : Fluid K :=
  { r with
    member := fun m => if m = n then true else r.member m
    hiP := hi (fun m => (x m).pressure) r.hiP n
    loP := lo (fun m => (x m).pressure) r.loP n
    hiT := hi (fun m => (x m).temperature) r.hiT n
    loT := lo (fun m => (x m).temperature) r.loT n
    parts := fun c => total (fun m => (x m).mass * (x m).massFrac c) (r.parts c) n
    hiX := fun c => hi (fun m => (x m).moleFrac c) (r.hiX c) n
    loX := fun c => lo (fun m => (x m).moleFrac c) (r.loX c) n
    volume := total (fun m => (x m).volume) r.volume n
    mass := total (fun m => (x m).mass) r.mass n
    energy := total (fun m => (x m).mass * (x m).enthalpy) r.energy n }

/-- `GunnsFluidIslandAnalyzer::stepPostSolver` with `analyze`, GunnsFluidIslandAnalyzer.cpp:224-382. -/
def analyzeFluid (numNodes : ℕ) (attached : ℤ) (island : Option (List ℕ)) (x : ℕ → Node K) : Fluid K :=
  if -1 < attached ∧ attached < (numNodes : ℤ) - 1 then
    match island with
    | none => resetFluid
    | some l => l.foldl (visitFluid x) { (resetFluid : Fluid K) with
        size := l.length
        hiP := ⟨-far, -1⟩
        loP := ⟨far, -1⟩
        hiT := ⟨-far, -1⟩
        loT := ⟨far, -1⟩
        hiX := fun _ => ⟨-far, -1⟩
        loX := fun _ => ⟨far, -1⟩ }
  else resetFluid

/-- What one step of the flow integrator reads: the mass fractions of the two nodes before the solution, and the flow rate after it. -/
structure Pass (K : Type*) where
  x0 : ℕ → K
  x1 : ℕ → K
  rate : K
  dt : K

/-- `stepPreSolver` and `stepPostSolver`, GunnsFluidFlowIntegrator.cpp:178-221. -/
def integrate (m : ℕ → K) (s : Pass K) : ℕ → K :=
  if 0 < s.rate then fun c => m c + s.x0 c * s.rate * s.dt else fun c => m c + s.x1 c * s.rate * s.dt

end Gunns.Spot
