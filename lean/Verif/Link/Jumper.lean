import Verif.Base.Loop

/-!
# Sockets, jumper plugs and jumpers

Model of `core/GunnsBasicSocket.cpp`, `core/GunnsBasicJumperPlug.cpp` and `core/GunnsBasicJumper.cpp`. Plugs
and sockets are numbered; a pointer to a plug or socket is its number. The accessors that are virtual in
`GunnsBasicJumperPlug` (getActiveConnection, ...) are plain variables of the plug, as in every implementation;
`tracksLast` tells whether the implementation keeps the last disconnection (the default ones do nothing).
Messages are left out. The socket list is complete, as `initialize` demands; `size` is getNoConnection().
-/

namespace Gunns.Jumper

/-- A socket: the nodes of its two ports, mConnection and mHasConnection. -/
structure Socket where
  node0 : Int
  node1 : Int
  conn : Option Nat
  has : Bool

/-- A plug: its socket list and its state. -/
structure Plug where
  size : Nat
  list : Nat → Nat
  tracksLast : Bool
  active : Int
  last : Int
  connReq : Int
  discReq : Int
  direct : Int
  disable : Bool
  node : Int

structure World where
  sockets : Nat → Socket
  plugs : Nat → Plug

def World.setSocket (w : World) (i : Nat) (s : Socket) : World :=
  { w with sockets := fun k => if k = i then s else w.sockets k }

def World.setPlug (w : World) (i : Nat) (p : Plug) : World :=
  { w with plugs := fun k => if k = i then p else w.plugs k }

/-- End of an operation: normally or with an exception that leaves it; both with the state reached. -/
inductive Res
  | ok (w : World)
  | thrown (w : World)

def Res.world : Res → World
  | .ok w => w
  | .thrown w => w

/-- Continue after a normal end. -/
def Res.andThen (r : Res) (f : World → Res) : Res :=
  match r with
  | .ok w => f w
  | .thrown w => .thrown w

/-- `setLastDisconnection` (core/GunnsBasicJumperPlug.hh:65 and its overrides). -/
def Plug.setLast (p : Plug) (i : Int) : Plug := if p.tracksLast then { p with last := i } else p

/-- `getLastDisconnection` (core/GunnsBasicJumperPlug.hh:75 and its overrides). -/
def Plug.getLast (p : Plug) : Int := if p.tracksLast then p.last else p.size

/-- `getSocket` (core/GunnsBasicJumperPlug.cpp:170-181); `none` is the exception. -/
def Plug.getSocket (p : Plug) (i : Int) : Option Nat :=
  if i < 0 ∨ i ≥ p.size then none else some (p.list i.toNat)

/-- `isConnected(plug)` (core/GunnsBasicSocket.hh:156-159). -/
def Socket.holds (s : Socket) (plug : Nat) : Bool := s.conn = some plug

/-- `updateActiveConnection` (core/GunnsBasicJumperPlug.cpp:300-310): the first socket of the list that holds
the plug; the break is modelled by keeping the first hit. -/
def updateActive (w : World) (p : Nat) : World :=
  w.setPlug p { w.plugs p with
    active := loop (fun i c => if c = ((w.plugs p).size : Int) ∧
        (w.sockets ((w.plugs p).list i)).holds p = true then (i : Int) else c)
      (w.plugs p).size ((w.plugs p).size : Int) }

/-- `requestConnection` (core/GunnsBasicSocket.cpp:206-223); `none` is the exception for an occupied
socket. -/
def Socket.requestConnection (s : Socket) (plug : Nat) : Option (Socket × Int) :=
  match s.conn with
  | some _ => none
  | none => some ({ s with
      conn := some plug
      has := true }, s.node0)

/-- `requestDisconnection` (core/GunnsBasicSocket.cpp:236-245). -/
def Socket.requestDisconnection (s : Socket) (plug : Nat) : Socket × Int :=
  (if s.conn = some plug then { s with
      conn := none
      has := false } else s, s.node1)

/-- `processDirectConnectionRequest` (core/GunnsBasicJumperPlug.cpp:196-227). -/
def processDirect (w : World) (p : Nat) : World :=
  let q := w.plugs p
  let q := if q.disable then { q with direct := -99 } else q
  let q := if q.direct ≥ 0 ∧ q.direct ≤ q.size ∧ q.direct ≠ q.active then
      let q := { q with discReq := q.active }
      if q.direct ≠ q.size then
        (match q.getSocket q.direct with
        | some s => if (w.sockets s).has then q else { q with connReq := q.direct }
        | none => q)
      else q
    else q
  w.setPlug p q

/-- `processConnectionRequest` (core/GunnsBasicJumperPlug.cpp:236-259). The exception of an occupied socket is
caught; that of a bad socket number is not. -/
def processConnection (w : World) (p : Nat) : Res :=
  let q := w.plugs p
  let clear := fun q : Plug => { q with connReq := (q.size : Int) }
  if (q.size : Int) ≠ q.connReq then
    if (q.size : Int) ≠ q.active then .ok (w.setPlug p (clear q))
    else
      match q.getSocket q.connReq with
      | none => .thrown w
      | some s =>
        match (w.sockets s).requestConnection p with
        | none => .ok (w.setPlug p (clear q))
        | some (s', node) =>
          .ok ((w.setSocket s s').setPlug p (clear (Plug.setLast { q with node := node } q.size)))
  else .ok (w.setPlug p (clear q))

/-- `processDisconnectionRequest` (core/GunnsBasicJumperPlug.cpp:268-289). -/
def processDisconnection (w : World) (p : Nat) : Res :=
  let q := w.plugs p
  let clear := fun q : Plug => { q with discReq := (q.size : Int) }
  if (q.size : Int) ≠ q.discReq then
    if q.active ≠ q.discReq ∧ q.active ≠ q.size then .ok (w.setPlug p (clear q))
    else
      match q.getSocket q.discReq with
      | none => .thrown w
      | some s =>
        let r := (w.sockets s).requestDisconnection p
        .ok ((w.setSocket s r.1).setPlug p (clear (Plug.setLast { q with node := r.2 } q.discReq)))
  else .ok (w.setPlug p (clear q))

/-- `update` (core/GunnsBasicJumperPlug.cpp:142-157). The returned node is the plug's `node`. -/
def update (w : World) (p : Nat) (currentNode : Int) : Res :=
  let w := w.setPlug p { w.plugs p with node := currentNode }
  let w := processDirect w p
  (processDisconnection w p).andThen fun w =>
  let w := updateActive w p
  (processConnection w p).andThen fun w =>
  .ok (updateActive w p)

/-- `initialize` of a plug (core/GunnsBasicJumperPlug.cpp:96-131). The list check always passes here. -/
def initPlug (w : World) (p : Nat) (initNode initSocket : Int) : Res :=
  let w := w.setPlug p { w.plugs p with
    direct := -99
    disable := false }
  if initSocket < 0 ∨ initSocket > (w.plugs p).size then .thrown w
  else
    let w := w.setPlug p { w.plugs p with
      node := initNode
      connReq := initSocket }
    (processConnection w p).andThen fun w =>
    let w := updateActive w p
    if (w.plugs p).active ≠ initSocket then .thrown w else .ok w

/-- The requests made by `GunnsBasicJumper::restartModel` for a plug before its update
(core/GunnsBasicJumper.cpp:204-214). -/
def restartRequests (w : World) (p : Nat) : World :=
  let q := w.plugs p
  w.setPlug p (if (q.size : Int) ≠ q.active then { q with
      discReq := q.active
      connReq := q.active }
    else { q with
      discReq := q.getLast
      connReq := (q.size : Int) })

/-- One port of a jumper: its node and whether the node map is locked. -/
structure JumperPort where
  node : Int
  locked : Bool

/-- `updatePlugs` for one port with a plug (core/GunnsBasicJumper.cpp:254-264) with `setPort`
(core/GunnsBasicLink.cpp:477-503) of a jumper, which allows shared nodes
(core/GunnsBasicJumper.hh:151-154); `nodes` is the number of nodes. An exception skips `setPort`. -/
def updatePort (w : World) (p : Nat) (j : JumperPort) (nodes : Int) : Res × JumperPort :=
  match update w p j.node with
  | .thrown w => (.thrown w, j)
  | .ok w =>
    let node := (w.plugs p).node
    (.ok w, if node ≠ j.node ∧ j.locked = false ∧ 0 ≤ node ∧ node < nodes then { j with node := node } else j)

/-- What can happen to plugs and sockets: user requests, updates, initialisation and restart of a plug, and a
socket's ports moving. -/
inductive Op
  | connect (p : Nat) (i : Int)
  | disconnect (p : Nat) (i : Int)
  | direct (p : Nat) (i : Int)
  | disable (p : Nat) (b : Bool)
  | update (p : Nat) (node : Int)
  | init (p : Nat) (node socket : Int)
  | restart (p : Nat) (node : Int)
  | move (s : Nat) (node0 node1 : Int)

/-- An operation; an exception ends it and leaves the state reached. -/
def Op.run (w : World) : Op → World
  | .connect p i => w.setPlug p { w.plugs p with connReq := i }
  | .disconnect p i => w.setPlug p { w.plugs p with discReq := i }
  | .direct p i => w.setPlug p { w.plugs p with direct := i }
  | .disable p b => w.setPlug p { w.plugs p with disable := b }
  | .update p node => (Jumper.update w p node).world
  | .init p node socket => (initPlug w p node socket).world
  | .restart p node => (Jumper.update (restartRequests w p) p node).world
  | .move s n0 n1 => w.setSocket s { w.sockets s with
      node0 := n0
      node1 := n1 }

end Gunns.Jumper
