import Verif.Link.Ports

/-!
# What users expect of ports

Stated on the observable maps only.
-/

namespace Gunns.Ports

/-- `idx` is the place, in a row-major `N × N` matrix, of the entry for nodes `a` and `b`; `-1` when
one of them is the ground node `N`, which has no row. -/
def Addresses (N a b idx : Int) : Prop :=
  ((a = N ∨ b = N) → idx = -1) ∧
  (a ≠ N → b ≠ N → 0 ≤ idx ∧ idx < N * N ∧ idx / N = a ∧ idx % N = b)

/-- A port map is legal: every port on an existing node, no two ports on the same non-ground node. -/
structure LegalMap (n : Nat) (g : Int) (m : Nat → Int) : Prop where
  exist : ∀ p, p < n → 0 ≤ m p ∧ m p ≤ g
  apart : ∀ p q, p < n → q < n → p ≠ q → m p = m q → m p = g

/-- The link's port data are legal and consistent with each other. -/
structure Legal (l : Link) : Prop where
  map : LegalMap l.numPorts l.groundIdx l.nodeMap
  pointers : ∀ p, p < l.numPorts → l.nodes p = some (l.nodeMap p)
  matrix : ∀ p q, p < l.numPorts → q < l.numPorts →
    Addresses l.groundIdx (l.nodeMap p) (l.nodeMap q) (l.admMap (p * l.numPorts + q))
  defaults : LegalMap l.numPorts l.groundIdx l.defaults

/-- Two maps agree on the ports. -/
def SameMap (n : Nat) (m m' : Nat → Int) : Prop := ∀ p, p < n → m p = m' p

/-- `m'` is `m` with port `p` moved to `node`. -/
def Moved (n : Nat) (m m' : Nat → Int) (p node : Int) : Prop :=
  ∀ q, q < n → m' q = if (q : Int) = p then node else m q

/-- A request that may be granted: the map is not locked, the port exists, and the map with the port
moved is legal and obeys the link's own rule. -/
def Acceptable (l : Link) (p node : Int) : Prop :=
  l.locked = false ∧ (0 ≤ p ∧ p < l.numPorts) ∧
  LegalMap l.numPorts l.groundIdx (fun q => if (q : Int) = p then node else l.nodeMap q) ∧
  l.rules p node = true

/-- What the user asks for with the panel: which port should go to which node.  `none` when no
port is named for "back to default". -/
def asked (l : Link) : Option (Int × Int) :=
  match l.control with
  | .execute => some (l.userPort, l.userNode)
  | .ground => some (l.userPort, l.groundIdx)
  | .default =>
    if 0 ≤ l.userPort ∧ l.userPort < l.numPorts then
      some (l.userPort, l.defaults l.userPort.toNat) else none
  | _ => none

/-- Some operation of the history changes the map. -/
def Changes (ptr : Link → Int → Option Link) : List Op → Link → Prop
  | [], _ => False
  | o :: os, l => ∃ l', o.run ptr l = some l' ∧
      (¬ SameMap l.numPorts l.nodeMap l'.nodeMap ∨ Changes ptr os l')

/-- Neither a poll nor a restart: these clear the flag. -/
def Op.keepsFlag : Op → Bool
  | .poll => false
  | .restart => false
  | _ => true

/-- Every port number the operation makes the link use is one of the link's. -/
def Op.inRange (n : Nat) : Op → Prop
  | .set p _ => 0 ≤ p ∧ p < n
  | .panel p _ c => (0 ≤ p ∧ p < n) ∨ (c ≠ .execute ∧ c ≠ .ground)
  | _ => True

end Gunns.Ports
