import Verif.Base.Const
import Verif.Math.Interp

/-!
# A hydrogen fuel cell or electrolyser

Model of `GunnsFluidSimpleH2Redox` (aspects/fluid/source/GunnsFluidSimpleH2Redox.cpp): a stack of cells in which hydrogen at port 0 and
oxygen at port 1 become water at port 0, with a positive current, or the other way round.

Simplifications: doubles are elements of an ordered field.  The contents of the nodes enter by partial pressures, the product of mole
fraction and pressure.  Commands to change ports are left out.
-/

namespace Gunns.Redox

open Gunns.Interp (limitRange)

variable {K : Type*} [Field K] [LinearOrder K] [IsStrictOrderedRing K]

/-- Configuration, GunnsFluidSimpleH2Redox.hh:51-54, and the molecular weights of the three fluids. -/
structure Config (K : Type*) where
  /-- `mNumCells` -/
  cells : Nat
  /-- `mCellVoltageLoaded` -/
  volts : K
  /-- `mCellH2ReactRate` -/
  rate : K
  /-- `mMaxEfficiency` -/
  maxEff : K
  wH2 : K
  wO2 : K
  wH2O : K

/-- `validate`, GunnsFluidSimpleH2Redox.cpp:238-255 (the fluids being in the network is taken for granted). -/
def Config.Valid (c : Config K) : Prop :=
  1 ≤ c.cells ∧ dblEps ≤ c.volts ∧ dblEps ≤ c.rate ∧ dblEps ≤ c.maxEff ∧ c.maxEff ≤ 1

/-- `mReactionHeat`, GunnsFluidSimpleH2Redox.cpp:22. -/
def reactionHeat : K := 48600000

/-- What a pass is given: `mCurrent`, the blockage malfunction, and the partial pressures of hydrogen and water at port 0 and of
oxygen at port 1. -/
structure Pass (K : Type*) where
  current : K
  block : Option K
  pH2 : K
  pH2O : K
  pO2 : K

/-- The attributes a step sets. -/
structure Cell (K : Type*) where
  /-- `mTrippedOff` -/
  tripped : Bool
  /-- `mEfficiency` -/
  eff : K
  /-- mass rates -/
  mH2 : K
  mO2 : K
  mH2O : K
  /-- mole rates -/
  nH2 : K
  nO2 : K
  nH2O : K
  /-- `mOutputStackVoltage` -/
  volts : K
  /-- `mOutputHeat` -/
  heat : K
  /-- `mSourceVector` -/
  source0 : K
  source1 : K

/-- The check of the reactants, GunnsFluidSimpleH2Redox.cpp:285-294. -/
def starved (q : Pass K) : Bool :=
  if 0 < q.current then decide (q.pH2 < 1 / 1000) || decide (q.pO2 < 1 / 1000) else decide (q.pH2O < 1 / 1000)

/-- GunnsFluidSimpleH2Redox.cpp:297-301. -/
def efficiency (c : Config K) (q : Pass K) : K :=
  match q.block with
  | some b => limitRange dblEps (c.maxEff * (1 - b)) 1
  | none => limitRange dblEps c.maxEff 1

/-- GunnsFluidSimpleH2Redox.cpp:306-311. -/
def h2Rate (c : Config K) (q : Pass K) : K :=
  if 0 < q.current then -q.current * c.rate * c.cells / efficiency c q else -q.current * c.rate * c.cells * efficiency c q

/-- `step`, GunnsFluidSimpleH2Redox.cpp:277-343, and `buildSource`, 348-352; `zeroReactionRates` sets all six rates to zero. -/
def step (c : Config K) (q : Pass K) (s : Cell K) : Cell K :=
  let trip := s.tripped || starved q
  let m := h2Rate c q
  let off := trip || decide (|m| < 100 * dblEps)
  let n := if off then 0 else m / c.wH2
  { tripped := trip
    eff := efficiency c q
    mH2 := if off then 0 else m
    nH2 := n
    nO2 := if off then 0 else 1 / 2 * n
    nH2O := if off then 0 else -n
    mO2 := if off then 0 else 1 / 2 * n * c.wO2
    mH2O := if off then 0 else -n * c.wH2O
    volts := if trip then 0 else c.volts * c.cells
    heat := reactionHeat * -n
    source0 := n + (if off then 0 else -n)
    source1 := if off then 0 else 1 / 2 * n }

/-- What `transportFlows`, GunnsFluidSimpleH2Redox.cpp:385-403, puts into the nodes: hydrogen and water into node 0, oxygen into node 1. -/
def transport (s : Cell K) : K × K × K := if 100 * dblEps ≤ |s.mH2| then (s.mH2, s.mH2O, s.mO2) else (0, 0, 0)

/-- Passes one after the other. -/
def run (c : Config K) (qs : List (Pass K)) (s : Cell K) : Cell K := qs.foldl (fun s q => step c q s) s

end Gunns.Redox
