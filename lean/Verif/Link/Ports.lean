import Verif.Base.Loop

/-!
# Ports of a link: node map, admittance map, user port panel

Model of the port handling of `GunnsBasicLink` (/repo/core/GunnsBasicLink.cpp) and of the one
override made by `GunnsFluidLink` (/repo/core/GunnsFluidLink.cpp:352-356).

* `int` is modelled by `Int` (no overflow; the products of node numbers of a network that fits in
  memory do not overflow).
* Arrays of `mNumPorts` elements are functions on `Nat`; every access of the C++ code goes through
  `rd`/`wr`, which give `none` for an index outside the array.  `none` is undefined behaviour.
* A node pointer is the node number it points to; a null pointer is `none`.  Forming the address
  `&mNodes[-1]` of a port refused during initialisation is not counted as undefined behaviour
  (the pointer is never used: `validateNodes` throws).
* Messages are not modelled.
* `checkSpecificPortRules` is virtual: it is the field `rules`, which the environment may change
  between calls (some links' rules depend on the phase of the node's fluid).
-/

namespace Gunns.Ports

/-- `mUserPortSetControl`, /repo/core/GunnsBasicLink.hh (enum `UserPortControl`). -/
inductive Control
  | failed | ready | execute | ground | default
  deriving DecidableEq, Repr

/-- The port-related state of a link, /repo/core/GunnsBasicLink.hh:276-302. -/
structure Link where
  /-- `mNumPorts` -/
  numPorts : Nat
  /-- `mNodeList->mNumNodes - 1`, /repo/core/GunnsBasicLink.cpp:764-767 -/
  groundIdx : Int
  /-- `checkSpecificPortRules` -/
  rules : Int → Int → Bool
  /-- `mNodeMapLocked` -/
  locked : Bool
  /-- `mDefaultNodeMap` -/
  defaults : Nat → Int
  /-- `mNodeMap` -/
  nodeMap : Nat → Int
  /-- `mNodes` -/
  nodes : Nat → Option Int
  /-- `mAdmittanceMap.mMap` -/
  admMap : Nat → Int
  /-- `mAdmittanceUpdate` -/
  admUpdate : Bool
  /-- `mUserPortSelect` -/
  userPort : Int
  /-- `mUserPortSelectNode` -/
  userNode : Int
  /-- `mUserPortSetControl` -/
  control : Control

/-- Read an array of `n` elements; `none` is an access outside the array. -/
def rd {α : Type _} (n : Nat) (a : Nat → α) (i : Int) : Option α :=
  if 0 ≤ i ∧ i < n then some (a i.toNat) else none

/-- Write an array of `n` elements; `none` is an access outside the array. -/
def wr {α : Type _} (n : Nat) (a : Nat → α) (i : Int) (v : α) : Option (Nat → α) :=
  if 0 ≤ i ∧ i < n then some (fun k => if k = i.toNat then v else a k) else none

/-- `GunnsBasicLink::checkValidPortNumber`, /repo/core/GunnsBasicLink.cpp:696-699. -/
def validPort (l : Link) (port : Int) : Bool := decide (-1 < port) && decide (port < l.numPorts)

/-- `GunnsBasicLink::checkValidNodeNumber`, /repo/core/GunnsBasicLink.cpp:708-711. -/
def validNode (l : Link) (node : Int) : Bool := decide (-1 < node) && decide (node ≤ l.groundIdx)

/-- `GunnsBasicLink::checkPortDuplication`, /repo/core/GunnsBasicLink.cpp:569-584. -/
def checkDuplication (l : Link) (port node : Int) : Bool :=
  loop (fun other result =>
    if port ≠ (other : Int) ∧ l.nodeMap other = node ∧ node < l.groundIdx then false else result)
    l.numPorts true

/-- `GunnsBasicLink::checkPortRules`, /repo/core/GunnsBasicLink.cpp:529-556. -/
def checkRules (l : Link) (port node : Int) : Bool :=
  let result :=
    if !validPort l port then false
    else if !validNode l node then false
    else checkDuplication l port node
  if result then l.rules port node else result

/-- `GunnsBasicLink::updateAdmittanceMap`, /repo/core/GunnsBasicLink.cpp:374-391. -/
def updateAdmMap (l : Link) : Link :=
  { l with
    admMap := loop (fun port1 m =>
      loop (fun port2 m k =>
        if k = port1 * l.numPorts + port2 then
          (if l.nodeMap port1 = l.groundIdx ∨ l.nodeMap port2 = l.groundIdx then -1
           else l.nodeMap port1 * l.groundIdx + l.nodeMap port2)
        else m k) l.numPorts m) l.numPorts l.admMap }

/-- `GunnsBasicLink::updateNodePointer`, /repo/core/GunnsBasicLink.cpp:512-517. -/
def updateNodePointerBasic (l : Link) (port : Int) : Option Link :=
  if validPort l port then do
    let node ← rd l.numPorts l.nodeMap port
    let nodes ← wr l.numPorts l.nodes port (some node)
    return { l with nodes := nodes }
  else some l

/-- `GunnsFluidLink::updateNodePointer`, /repo/core/GunnsFluidLink.cpp:352-356: no check of the
port number. -/
def updateNodePointerFluid (l : Link) (port : Int) : Option Link := do
  let node ← rd l.numPorts l.nodeMap port
  let nodes ← wr l.numPorts l.nodes port (some node)
  return { l with nodes := nodes }

/-- `GunnsBasicLink::setPort`, /repo/core/GunnsBasicLink.cpp:477-503, over the virtual
`updateNodePointer`.  The result is the new state and the value returned. -/
def setPort (ptr : Link → Int → Option Link) (l : Link) (port node : Int) :
    Option (Link × Bool) := do
  let result := !l.locked && checkRules l port node
  let l ←
    if result then do
      let old ← rd l.numPorts l.nodeMap port
      if node ≠ old then do
        let m ← wr l.numPorts l.nodeMap port node
        pure { l with
          nodeMap := m
          admUpdate := true }
      else pure l
    else pure l
  let l ← ptr l port
  return (updateAdmMap l, result)

/-- `GunnsBasicLink::processUserPortCommand`, /repo/core/GunnsBasicLink.cpp:640-674. -/
def processUser (ptr : Link → Int → Option Link) (l : Link) : Option Link := do
  let l ←
    if l.control = .default then
      if validPort l l.userPort then do
        let node ← rd l.numPorts l.defaults l.userPort
        pure { l with
          userNode := node
          control := .execute }
      else
        pure { l with
          control := .failed
          userPort := -1
          userNode := -1 }
    else if l.control = .ground then
      pure { l with
        userNode := l.groundIdx
        control := .execute }
    else pure l
  if l.control = .execute then do
    let (l', ok) ← setPort ptr l l.userPort l.userNode
    return { l' with
      control := if ok then .ready else .failed
      userPort := -1
      userNode := -1 }
  else return l

/-- `GunnsBasicLink::needAdmittanceUpdate`, /repo/core/GunnsBasicLink.cpp:459-464. -/
def needUpdate (l : Link) : Link × Bool := ({ l with admUpdate := false }, l.admUpdate)

/-- `GunnsBasicLink::registerNodes`, /repo/core/GunnsBasicLink.cpp:313-319. -/
def registerNodes (ptr : Link → Int → Option Link) (map : Nat → Int) (l : Link) : Option Link :=
  loop (fun i acc => do
    let l ← acc
    let r ← setPort ptr { l with defaults := fun k => if k = i then map i else l.defaults k } i (map i)
    return r.1) l.numPorts (some l)

/-- `GunnsBasicLink::initializeRestartCommonFunctions`, /repo/core/GunnsBasicLink.hh:489-496. -/
def restartCommon (l : Link) : Link :=
  { l with
    admUpdate := false
    userPort := -1
    userNode := -1
    control := .ready }

/-- `GunnsBasicLink::restart`, /repo/core/GunnsBasicLink.cpp:291-296 (`restartModel` is empty in the
base class).  `registerNodes` is called with the link's own default map. -/
def restart (ptr : Link → Int → Option Link) (l : Link) : Option Link :=
  registerNodes ptr l.defaults (restartCommon l)

/-- State after `allocateMatrixAndVectors`, /repo/core/GunnsBasicLink.cpp:324-349. -/
def allocate (numPorts : Nat) (groundIdx : Int) (rules : Int → Int → Bool) (locked : Bool) : Link where
  numPorts := numPorts
  groundIdx := groundIdx
  rules := rules
  locked := locked
  defaults := fun _ => -1
  nodeMap := fun _ => -1
  nodes := fun _ => none
  admMap := fun _ => -1
  admUpdate := false
  userPort := -1
  userNode := -1
  control := .ready

/-- What `GunnsBasicLink::initialize` can do. -/
inductive InitResult
  | ok (l : Link)
  | exception
  | undefined

/-- The port part of `GunnsBasicLink::initialize`, /repo/core/GunnsBasicLink.cpp:236-286, with
`validate` (402-429, here only the number of ports) and `validateNodes` (436-452).  `map` is the
initial node map of the input data if it is given, else the port list passed in. -/
def initLink (ptr : Link → Int → Option Link) (numPorts : Nat) (groundIdx : Int)
    (rules : Int → Int → Bool) (locked : Bool) (map : Nat → Int) : InitResult :=
  if numPorts < 1 then .exception
  else
    match registerNodes ptr map (allocate numPorts groundIdx rules false) with
    | none => .undefined
    | some l =>
      if (List.range numPorts).all
          (fun p => decide (0 ≤ l.nodeMap p) && (l.nodes p).isSome) then
        .ok (restartCommon { l with locked := locked })
      else .exception

/-- What the environment can do with an initialised link. -/
inductive Op
  /-- another object calls `setPort` -/
  | set (port node : Int)
  /-- the user fills in the panel -/
  | panel (port node : Int) (control : Control)
  /-- `processUserPortCommand` -/
  | process
  /-- the solver polls `needAdmittanceUpdate` -/
  | poll
  /-- `lockNodeMap` / `unlockNodeMap`, /repo/core/GunnsBasicLink.hh:501-512 -/
  | lock (b : Bool)
  /-- the specific rules change -/
  | rules (r : Int → Int → Bool)
  /-- `restart` -/
  | restart

/-- Execute one operation. -/
def Op.run (ptr : Link → Int → Option Link) : Op → Link → Option Link
  | .set p n, l => (setPort ptr l p n).map Prod.fst
  | .panel p n c, l =>
    some { l with
      userPort := p
      userNode := n
      control := c }
  | .process, l => processUser ptr l
  | .poll, l => some (needUpdate l).1
  | .lock b, l => some { l with locked := b }
  | .rules r, l => some { l with rules := r }
  | .restart, l => Ports.restart ptr l

/-- Execute a history. -/
def runOps (ptr : Link → Int → Option Link) : List Op → Link → Option Link
  | [], l => some l
  | o :: os, l => (o.run ptr l).bind (runOps ptr os)

end Gunns.Ports
