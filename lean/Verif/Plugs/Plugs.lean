import Verif.Base.Loop
import Mathlib.Tactic.Common

/-!
# Jumpers, plugs and sockets

`GunnsBasicJumper`, `GunnsBasicJumperPlug` and `GunnsBasicSocket` (core/), with the plug class generated
by draw/templates/BasicNetworkHeaderTemplate.py:130-170 for its stored requests. `GunnsFluidJumper`,
`GunnsFluidJumperPlug` and `GunnsFluidSocket` have the same plug, socket and port logic.

Simplifications: plugs, sockets and jumpers are numbered, and pointers to them are their numbers;
`mHasConnection` is whether `mConnection` is set, as the two are always stored together; every plug has its
full list of sockets (`initialize` checks this) and every socket is initialized; names and messages, the
restart of the conductor and the leak malfunction of the fluid classes are left out.
-/

namespace Gunns.Plugs

/-- Attributes of `GunnsBasicJumperPlug` and of the generated class. -/
structure Plug where
  /-- `mSockets`; `getNoConnection` is its length -/
  sockets : List Nat
  /-- `mActiveConnection` -/
  active : Int
  /-- `mLastDisconnection` -/
  last : Int
  /-- `mConnectionRequest` -/
  con : Int
  /-- `mDisconnectionRequest` -/
  dis : Int
  /-- `mDirectConnectionRequest` -/
  direct : Int
  /-- `mDirectConnectionDisable` -/
  disable : Bool
  deriving DecidableEq

/-- `getNoConnection`, draw/templates/BasicNetworkHeaderTemplate.py:170: the enumeration has one value per
socket and then `NONE`. -/
def Plug.no (p : Plug) : Int := (p.sockets.length : Int)

/-- Attributes of `GunnsBasicJumper` and its link; ports 0 and 1 are `false` and `true`. -/
structure Link where
  /-- `mPlug` -/
  plug : Bool → Option Nat
  /-- `mNodeMap` -/
  node : Bool → Nat
  /-- `mSelfSealing0`, `mSelfSealing1` -/
  sealing : Bool → Bool
  /-- `mNodeMapLocked` -/
  locked : Bool

/-- All plugs, sockets and jumpers of a network. -/
structure World where
  /-- the plugs -/
  plug : Nat → Plug
  /-- `mConnection` of each socket -/
  sock : Nat → Option Nat
  /-- `mNodeMap[0]` of each socket, the node behind it -/
  inner : Nat → Nat
  /-- `mNodeMap[1]` of each socket, its ambient node -/
  outer : Nat → Nat
  /-- the jumpers -/
  link : Nat → Link
  /-- `getGroundNodeIndex` -/
  ground : Nat

/-- A world with one plug changed. -/
def setPlug (w : World) (id : Nat) (p : Plug) : World :=
  { w with
    plug := fun k => if k = id then p else w.plug k }

/-- A world with one socket changed. -/
def setSock (w : World) (s : Nat) (c : Option Nat) : World :=
  { w with
    sock := fun k => if k = s then c else w.sock k }

/-- `GunnsBasicJumperPlug::getSocket`, GunnsBasicJumperPlug.cpp:170-181; `none` is the
`TsOutOfBoundsException`. -/
def getSocket (p : Plug) (i : Int) : Option Nat :=
  if i < 0 ∨ i ≥ p.no then none else p.sockets[i.toNat]?

/-- `GunnsBasicJumperPlug::processDirectConnectionRequest`, GunnsBasicJumperPlug.cpp:196-227. The call of
`getSocket` at 216 cannot throw, because the index was checked. -/
def processDirect (w : World) (id : Nat) : World :=
  let p := w.plug id
  let p :=
    if p.disable = true then
      { p with
        direct := -99 }
    else p
  if p.direct ≥ 0 ∧ p.direct ≤ p.no ∧ p.direct ≠ p.active then
    let p :=
      { p with
        dis := p.active }
    if p.direct ≠ p.no then
      match getSocket p p.direct with
      | none => setPlug w id p
      | some s =>
        if (w.sock s).isSome = true then setPlug w id p
        else
          setPlug w id
            { p with
              con := p.direct }
    else setPlug w id p
  else setPlug w id p

/-- What one of the steps of a plug leaves: the world, `mConnectedNode`, and whether it threw. -/
structure Out where
  /-- the world -/
  world : World
  /-- `mConnectedNode` -/
  node : Nat
  /-- a `TsOutOfBoundsException` left the function -/
  threw : Bool

/-- `GunnsBasicSocket::requestDisconnection`, GunnsBasicSocket.cpp:236-245. -/
def requestDisconnection (w : World) (s id : Nat) : World :=
  if w.sock s = some id then setSock w s none else w

/-- `GunnsBasicJumperPlug::processDisconnectionRequest`, GunnsBasicJumperPlug.cpp:268-289. -/
def processDis (w : World) (id node : Nat) : Out :=
  let p := w.plug id
  if p.no ≠ p.dis then
    if p.active ≠ p.dis ∧ p.active ≠ p.no then
      ⟨setPlug w id
        { p with
          dis := p.no }, node, false⟩
    else
      match getSocket p p.dis with
      | none => ⟨w, node, true⟩
      | some s =>
        ⟨setPlug (requestDisconnection w s id) id
          { p with
            last := p.dis
            dis := p.no }, w.outer s, false⟩
  else
    ⟨setPlug w id
      { p with
        dis := p.no }, node, false⟩

/-- `GunnsBasicJumperPlug::processConnectionRequest`, GunnsBasicJumperPlug.cpp:236-259, with
`GunnsBasicSocket::requestConnection`, GunnsBasicSocket.cpp:206-223. -/
def processCon (w : World) (id node : Nat) : Out :=
  let p := w.plug id
  if p.no ≠ p.con then
    if p.no ≠ p.active then
      ⟨setPlug w id
        { p with
          con := p.no }, node, false⟩
    else
      match getSocket p p.con with
      | none => ⟨w, node, true⟩
      | some s =>
        if (w.sock s).isSome = true then
          ⟨setPlug w id
            { p with
              con := p.no }, node, false⟩
        else
          ⟨setPlug (setSock w s (some id)) id
            { p with
              last := p.no
              con := p.no }, w.inner s, false⟩
  else
    ⟨setPlug w id
      { p with
        con := p.no }, node, false⟩

/-- `GunnsBasicJumperPlug::updateActiveConnection`, GunnsBasicJumperPlug.cpp:300-310: the first socket of
the list that has this plug, or none. -/
def updateActive (w : World) (id : Nat) : World :=
  let p := w.plug id
  setPlug w id
    { p with
      active := ((p.sockets.findIdx (fun s => decide (w.sock s = some id)) : Nat) : Int) }

/-- `GunnsBasicJumperPlug::update`, GunnsBasicJumperPlug.cpp:142-157. -/
def update (w : World) (id current : Nat) : Out :=
  let a := processDis (processDirect w id) id current
  if a.threw = true then a
  else
    let b := processCon (updateActive a.world id) id a.node
    if b.threw = true then b else ⟨updateActive b.world id, b.node, false⟩

/-- `GunnsBasicJumperPlug::initialize`, GunnsBasicJumperPlug.cpp:96-131; `threw` is also its own
exception. -/
def initPlug (w : World) (id initNode : Nat) (initSocket : Int) : Out :=
  let p := w.plug id
  let w1 := setPlug w id
    { p with
      direct := -99
      disable := false }
  if initSocket < 0 ∨ initSocket > p.no then ⟨w1, initNode, true⟩
  else
    let p := w1.plug id
    let b := processCon (setPlug w1 id
      { p with
        con := initSocket }) id initNode
    if b.threw = true then b
    else
      let w2 := updateActive b.world id
      if (w2.plug id).active ≠ initSocket then ⟨w2, b.node, true⟩ else ⟨w2, b.node, false⟩

/-- A world with one jumper changed. -/
def setLink (w : World) (j : Nat) (l : Link) : World :=
  { w with
    link := fun k => if k = j then l else w.link k }

/-- `GunnsBasicLink::setPort` on a jumper, core/GunnsBasicLink.cpp:477-503, with `checkPortRules` and
`checkPortDuplication`, 529-584. -/
def setPort (w : World) (j : Nat) (k : Bool) (n : Nat) : World :=
  let l := w.link j
  if l.locked = false ∧ n ≤ w.ground ∧ ¬ (l.node (!k) = n ∧ n < w.ground) then
    setLink w j
      { l with
        node := fun m => if m = k then n else l.node m }
  else w

/-- One turn of the loop in `GunnsBasicJumper::updatePlugs`, GunnsBasicJumper.cpp:257-262. -/
def updatePort (w : World) (j : Nat) (k : Bool) : World × Bool :=
  match (w.link j).plug k with
  | none => (w, false)
  | some id =>
    let r := update w id ((w.link j).node k)
    if r.threw = true then (r.world, true)
    else if r.node ≠ (w.link j).node k then (setPort r.world j k r.node, false)
    else (r.world, false)

/-- `GunnsBasicJumper::updatePlugs`, GunnsBasicJumper.cpp:254-264; an exception in the first turn leaves
the loop. -/
def updatePlugs (w : World) (j : Nat) : World × Bool :=
  let a := updatePort w j false
  if a.2 = true then a else updatePort a.1 j true

/-- One turn of the loop in `GunnsBasicJumper::initialize`, GunnsBasicJumper.cpp:180-184. -/
def initPort (w : World) (j : Nat) (k : Bool) (socket : Int) : World × Bool :=
  match (w.link j).plug k with
  | none => (w, false)
  | some id =>
    let r := initPlug w id ((w.link j).node k) socket
    if r.threw = true then (r.world, true) else (setPort r.world j k r.node, false)

/-- The loop in `GunnsBasicJumper::initialize`, GunnsBasicJumper.cpp:178-184. -/
def initJumper (w : World) (j : Nat) (socket0 socket1 : Int) : World × Bool :=
  let a := initPort w j false socket0
  if a.2 = true then a else initPort a.1 j true socket1

/-- One turn of the loop in `GunnsBasicJumper::restartModel`, GunnsBasicJumper.cpp:204-214. -/
def restartPort (w : World) (j : Nat) (k : Bool) : World :=
  match (w.link j).plug k with
  | none => w
  | some id =>
    let p := w.plug id
    if p.no ≠ p.active then
      setPlug w id
        { p with
          dis := p.active
          con := p.active }
    else
      setPlug w id
        { p with
          dis := p.last
          con := p.no }

/-- `GunnsBasicJumper::restartModel`, GunnsBasicJumper.cpp:193-216. -/
def restart (w : World) (j : Nat) : World × Bool :=
  updatePlugs (restartPort (restartPort w j false) j true) j

/-- `GunnsBasicSocket::updateState`, GunnsBasicSocket.cpp:254-259: the socket conducts to its ambient node
only if this is true. -/
def socketOpen (w : World) (s : Nat) (selfSealing : Bool) : Bool :=
  !(selfSealing || (w.sock s).isSome)

/-- The decision in `GunnsBasicJumper::updateState` after the update of the plugs,
GunnsBasicJumper.cpp:232-244: the jumper conducts only if this is true. -/
def jumperOpen (w : World) (j : Nat) : Bool :=
  let l := w.link j
  let shut := fun k : Bool =>
    match l.plug k with
    | none => false
    | some id => l.sealing k && decide ((w.plug id).no = (w.plug id).active)
  !(shut false || shut true || decide (l.node false = l.node true))

/-- What can happen to the plugs, sockets and jumpers. -/
inductive Ev where
  /-- the jumper is initialized with these sockets -/
  | start (j : Nat) (socket0 socket1 : Int)
  /-- a user sets the requests of a plug -/
  | request (id : Nat) (con dis direct : Int) (disable : Bool)
  /-- the jumper is stepped -/
  | step (j : Nat)
  /-- the jumper is restarted from a checkpoint -/
  | restart (j : Nat)
  /-- a user moves a port of a jumper -/
  | movePort (j : Nat) (k : Bool) (n : Nat)
  /-- a user locks or unlocks the ports of a jumper -/
  | lock (j : Nat) (b : Bool)
  /-- a user moves the ports of a socket -/
  | moveSocket (s inner outer : Nat)

/-- The world after an event. An exception leaves the world as it is when it is thrown. -/
def happen (w : World) : Ev → World
  | .start j a b => (initJumper w j a b).1
  | .request id con dis direct disable =>
    let p := w.plug id
    setPlug w id
      { p with
        con := con
        dis := dis
        direct := direct
        disable := disable }
  | .step j => (updatePlugs w j).1
  | .restart j => (restart w j).1
  | .movePort j k n => setPort w j k n
  | .lock j b =>
    let l := w.link j
    setLink w j
      { l with
        locked := b }
  | .moveSocket s a b =>
    { w with
      inner := fun k => if k = s then a else w.inner k
      outer := fun k => if k = s then b else w.outer k }

/-- The world after a list of events. -/
def happens (w : World) (es : List Ev) : World := es.foldl happen w

end Gunns.Plugs
