import Verif.Solver.Model

/-!
# Network capacitances (`Gunns::perturbNetworkCapacitances`, `computeNetworkCapacitances`, core/Gunns.cpp)

The part of `buildAndSolveSystem` that Solver/Model leaves out.  The decomposed matrix `B` is that of
`solveCholesky`; solution by islands is the subject of C11, GPU solvers are left out.  An exception or an
access out of bounds in a solution is `none`.
-/

namespace Gunns.NetCap

open Gunns

variable {K : Type _} [Field K] [LinearOrder K]

/-- What the two functions read and write: `mNetworkCapacitanceRequest` and `mNetworkCapacitance` of the
nodes, and `mNetCapDeltaPotential`, `mSourceVector`, `mPotentialVector` of the solver. -/
structure State (K : Type _) where
  req : Vect K
  cap : Vect K
  delta : Mat K
  w : Vect K
  pot : Vect K

/-- `Gunns::solveCholesky` without islands, Gunns.cpp:1424. -/
def solveCholesky (N : Nat) (B : Mat K) (s : State K) : Option (State K) :=
  match solve B s.w s.pot N with
  | .ok x => some { s with pot := x }
  | _ => none

/-- Body of the loop of `Gunns::perturbNetworkCapacitances`, Gunns.cpp:1508-1526. -/
def perturbNode (N : Nat) (B : Mat K) (node : Nat) (s : State K) : Option (State K) :=
  let fluxPerturbation := s.req node
  if fluxPerturbation > dblEps then
    let savedSourceVector := s.w node
    match solveCholesky N B { s with w := Vect.set s.w node (s.w node + fluxPerturbation) } with
    | none => none
    | some s =>
      some { s with
             cap := Vect.set s.cap node (s.pot node)
             w := Vect.set s.w node savedSourceVector
             delta := loop (fun i d => Mat.set d node i (s.pot i)) N s.delta }
  else some { s with cap := Vect.set s.cap node 0 }

/-- `Gunns::perturbNetworkCapacitances`, Gunns.cpp:1505-1528. -/
def perturb (N : Nat) (B : Mat K) (s : State K) : Option (State K) :=
  loop (fun node o => o.bind (perturbNode N B node)) N (some s)

/-- Body of the loop of `Gunns::computeNetworkCapacitances`, Gunns.cpp:1541-1563. -/
def computeNode (N : Nat) (timeStep : K) (node : Nat) (s : State K) : State K :=
  let fluxPerturbation := s.req node
  if fluxPerturbation > dblEps then
    let deltaPotential := |s.cap node - s.pot node|
    { s with
      cap := Vect.set s.cap node
        (if deltaPotential > dblEps then timeStep * fluxPerturbation / deltaPotential else 0)
      delta := loop (fun i d => Mat.set d node i (d node i - s.pot i)) N s.delta
      req := Vect.set s.req node 0 }
  else s

/-- `Gunns::computeNetworkCapacitances`, Gunns.cpp:1538-1565. -/
def compute (N : Nat) (timeStep : K) (s : State K) : State K := loop (computeNode N timeStep) N s

/-- The solution in NORMAL mode, Gunns.cpp:1049-1054. -/
def solveNormal (N : Nat) (B : Mat K) (timeStep : K) (s : State K) : Option (State K) :=
  (perturb N B s).bind fun s =>
  (solveCholesky N B s).map fun s =>
  compute N timeStep { s with pot := cleanPot N s.pot }

end Gunns.NetCap
