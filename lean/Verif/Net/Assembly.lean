import Verif.LinAlg.Sor
import Verif.Net.Spec

/-!
# Model of the network assembly in `Gunns` (core/Gunns.cpp) and of the link map in `GunnsBasicLink`

The network matrix is the flat array `mAdmittanceMatrix` of `mNetworkSize²` terms, as in the code; it is
read as a matrix by `asMat`.  `N` is `mNetworkSize`, the number of nodes without ground; ground is
node number `N`.
-/

namespace Gunns

variable {K : Type _} [Field K] [LinearOrder K]

/-- What the solver sees of a link (pointers saved in Gunns.cpp:441-449). -/
structure LinkView (K : Type _) where
  /-- `mNumPorts` -/
  ports : Nat
  /-- `mNodeMap`: node of each port -/
  nodeMap : Nat → Nat
  /-- `mAdmittanceMatrix`: flat array -/
  adm : Nat → K
  /-- `mAdmittanceMap.mSize` -/
  mapSize : Nat
  /-- `mAdmittanceMap.mMap` -/
  map : Nat → Int
  /-- `mSourceVector` -/
  src : Nat → K

/-- `GunnsBasicLink::updateAdmittanceMap`, GunnsBasicLink.cpp:374-391, starting from any old map. -/
def updateAdmittanceMap (N ports : Nat) (nodeMap : Nat → Nat) (old : Nat → Int) : Nat → Int :=
  loop (fun port1 m => loop (fun port2 m => fun a =>
      if a = port1 * ports + port2 then
        (if nodeMap port1 = N ∨ nodeMap port2 = N then -1
         else (nodeMap port1 : Int) * N + nodeMap port2)
      else m a) ports m) ports old

/-- The element a link stands for. -/
def LinkView.element (l : LinkView K) : Spec.Element K where
  ports := l.ports
  node := l.nodeMap
  mat p q := l.adm (p * l.ports + q)
  src := l.src

/-- The link map was produced by `updateAdmittanceMap` for the node map of the link, which points to nodes
of the network or to ground. -/
structure LinkView.Mapped (N : Nat) (l : LinkView K) : Prop where
  size : l.mapSize = l.ports * l.ports
  nodes : ∀ p, p < l.ports → l.nodeMap p ≤ N
  map : ∃ old, l.map = updateAdmittanceMap N l.ports l.nodeMap old

/-- Inner loop of `buildAdmittanceMatrix` for one link, Gunns.cpp:1237-1242. -/
def addLinkAdmittance (N : Nat) (l : LinkView K) (A : Vect K) : Vect K :=
  loop (fun a A => if -1 < l.map a ∧ l.map a < (N * N : Nat) then
    A.set (l.map a).toNat (A (l.map a).toNat + l.adm a) else A) l.mapSize A

/-- `Gunns::buildAdmittanceMatrix` without the island part, Gunns.cpp:1229-1243. -/
def buildAdmittance (N : Nat) (links : List (LinkView K)) : Vect K :=
  links.foldl (fun A l => addLinkAdmittance N l A) (fun _ => 0)

/-- Row-major reading of the flat network matrix. -/
def asMat (N : Nat) (A : Vect K) : Mat K := fun i j => A (i * N + j)

/-- Inner loop of `buildSourceVector` for one link, Gunns.cpp:1350-1357. -/
def addLinkSource (N : Nat) (l : LinkView K) (w : Vect K) : Vect K :=
  loop (fun port w => if l.nodeMap port < N then
    w.set (l.nodeMap port) (w (l.nodeMap port) + l.src port) else w) l.ports w

/-- `Gunns::buildSourceVector`, Gunns.cpp:1342-1359. -/
def buildSource (N : Nat) (links : List (LinkView K)) : Vect K :=
  links.foldl (fun w l => addLinkSource N l w) (fun _ => 0)

/-- Row sum in `conditionAdmittanceMatrix`, Gunns.cpp:1616-1619. -/
def conditionRowSum (N row : Nat) (A : Mat K) : K := loop (fun j s => s + A row j) N 0

/-- Row body of `conditionAdmittanceMatrix`, Gunns.cpp:1616-1624. -/
def conditionRow (N row : Nat) (A : Mat K) : Mat K :=
  if |conditionRowSum N row A| < dblEps then
    A.set row row (A row row + max (A row row) dblEps * (1 / 10 ^ 15))
  else A

/-- `Gunns::conditionAdmittanceMatrix`, Gunns.cpp:1605-1626. -/
def conditionAdmittance (N : Nat) (A : Mat K) : Mat K := loop (conditionRow N) N A

end Gunns
