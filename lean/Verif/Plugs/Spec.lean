import Verif.Plugs.Plugs

/-!
# What jumpers, plugs and sockets are meant to do
-/

namespace Gunns.Plugs.Spec

open Gunns.Plugs

/-- Nothing is plugged in, nothing is requested, and no plug lists a socket twice. -/
def Fresh (w : World) : Prop :=
  (∀ s, w.sock s = none)
    ∧ ∀ id, (w.plug id).sockets.Nodup ∧ (w.plug id).active = (w.plug id).sockets.length
        ∧ (w.plug id).last = (w.plug id).sockets.length

/-- The worlds that can come about. -/
def Reach (w : World) : Prop := ∃ w0 es, Fresh w0 ∧ w = happens w0 es

/-- The plug is in the socket, or in none. -/
def In (w : World) (id : Nat) : Option Nat → Prop
  | some s => w.sock s = some id
  | none => ∀ s, w.sock s ≠ some id

/-- The index stands for the socket, or for none. -/
def Means (p : Plug) (i : Int) : Option Nat → Prop
  | some s => 0 ≤ i ∧ p.sockets[i.toNat]? = some s
  | none => i = p.sockets.length

/-- Where a plug is and the node its end of the jumper belongs to. -/
structure Place where
  /-- the socket it is in -/
  at? : Option Nat
  /-- the node -/
  node : Nat
  deriving DecidableEq

/-- Pulling a plug out of a socket: it must be in that socket, or in none, and ends up in the air around
that socket. -/
def pull (outer : Nat → Nat) (pl : Place) : Option Nat → Place
  | none => pl
  | some s => if pl.at? = none ∨ pl.at? = some s then ⟨none, outer s⟩ else pl

/-- Putting a plug into a socket: it must be in none, and the socket must be free. -/
def put (inner : Nat → Nat) (busy : Nat → Bool) (pl : Place) : Option Nat → Place
  | none => pl
  | some s => if pl.at? = none ∧ busy s = false then ⟨some s, inner s⟩ else pl

/-- What is asked of a plug: to be pulled out of the first and put into the second. A direct request
(`some none` is to be nowhere) differing from where the plug is replaces them: it is pulled out of where it
is, and put into the socket asked for, if that is free. -/
def asked (busy : Nat → Bool) (at? dis con : Option Nat) (direct : Option (Option Nat)) :
    Option Nat × Option Nat :=
  match direct with
  | none => (dis, con)
  | some t =>
    if t = at? then (dis, con)
    else
      match t with
      | none => (at?, con)
      | some s => if busy s = true then (at?, con) else (at?, some s)

/-- One update of a plug. -/
def turn (inner outer : Nat → Nat) (busy : Nat → Bool) (pl : Place) (dis con : Option Nat)
    (direct : Option (Option Nat)) : Place :=
  let a := asked busy pl.at? dis con direct
  put inner busy (pull outer pl a.1) a.2

/-- The direct request in force: none if disabled or out of range. -/
def Directed (p : Plug) : Option (Option Nat) → Prop
  | none => p.disable = true ∨ p.direct < 0 ∨ (p.sockets.length : Int) < p.direct
  | some t => p.disable = false ∧ Means p p.direct t

/-- The sockets held by other plugs. -/
def busyFor (w : World) (id : Nat) (s : Nat) : Bool :=
  match w.sock s with
  | none => false
  | some q => decide (q ≠ id)

/-- A round of updates: each of the plugs in turn, with the node its end is at. -/
def round (node : Nat → Nat) (w : World) (ids : List Nat) : World :=
  ids.foldl (fun w id => (update w id (node id)).world) w

/-- The socket is in the list of a plug. -/
def Listed (w : World) (s : Nat) : Prop := ∃ id, s ∈ (w.plug id).sockets

/-- All sockets have the ground as ambient node, and no two have the same node behind them. -/
def Grounded (w : World) : Prop :=
  ∀ s, Listed w s → w.outer s = w.ground ∧ w.inner s < w.ground
    ∧ ∀ t, Listed w t → w.inner s = w.inner t → s = t

/-- Each plug is at one end of one jumper at most. -/
def OneEnd (w : World) : Prop :=
  ∀ i j k m id, (w.link i).plug k = some id → (w.link j).plug m = some id → i = j ∧ k = m

/-- The ends of jumpers that have no plug are at none of the nodes behind sockets. -/
def Apart (w : World) : Prop :=
  ∀ j k, (w.link j).plug k = none → ∀ s, Listed w s → (w.link j).node k ≠ w.inner s

/-- An end of a jumper is where its plug is: at the node of the socket, or at the ground. -/
def RightEnd (w : World) (j : Nat) (k : Bool) : Prop :=
  ∀ id, (w.link j).plug k = some id →
    (∀ s, w.sock s = some id → (w.link j).node k = w.inner s)
      ∧ ((∀ s, w.sock s ≠ some id) → (w.link j).node k = w.ground)

/-- A plug that is told by no direct request to be where it is not. -/
def Settled (w : World) (id : Nat) : Prop :=
  Directed (w.plug id) none ∨ ∃ o, In w id o ∧ Directed (w.plug id) (some o)

/-- The requests of a plug are for sockets that exist. -/
def Sound (p : Plug) : Prop :=
  (0 ≤ p.con ∧ p.con ≤ p.sockets.length) ∧ 0 ≤ p.dis ∧ p.dis ≤ p.sockets.length

/-- Events that leave the ports alone, and ask only for sockets that exist; each plug has a number of
sockets. -/
def Plain (size : Nat → Nat) : Ev → Prop
  | .start _ _ _ => True
  | .request id con dis _ _ => (0 ≤ con ∧ con ≤ size id) ∧ 0 ≤ dis ∧ dis ≤ size id
  | .step _ => True
  | .restart _ => True
  | _ => False

end Gunns.Plugs.Spec
