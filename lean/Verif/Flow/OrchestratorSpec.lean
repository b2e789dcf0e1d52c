import Verif.Flow.Orchestrator

/-!
# What a proper flow update is

Independent of how the orchestrator schedules: conditions on the log of calls.
-/

namespace Gunns.Flow

/-- Link `l` has a port that takes fluid from node `n`. -/
def Net.Draws (net : Net) (l n : Nat) : Prop :=
  ∃ p, p < net.ports l ∧ net.node l p = n ∧ (net.dir l p = .source ∨ net.dir l p = .both)

/-- Link `l` has a port that puts fluid into node `n`. -/
def Net.Feeds (net : Net) (l n : Nat) : Prop :=
  ∃ p, p < net.ports l ∧ net.node l p = n ∧ (net.dir l p = .sink ∨ net.dir l p = .both)

/-- A non-ground node that overflows. -/
def Net.Overflows (net : Net) (n : Nat) : Prop := n < net.nodes ∧ net.over n = true

/-- `P e a` holds for every call `e` of the log, `a` being the calls before it. -/
def Ordered (P : Event → List Event → Prop) (log : List Event) : Prop :=
  ∀ a e b, log = a ++ e :: b → P e a

/-- The transport of link `l`, forced or not. -/
def Event.isTransport (l : Nat) (e : Event) : Bool := e = .transport l false ∨ e = .transport l true

/-- What must have happened before each call: flows are computed before anything else; a link transports
after all flows are computed and, unless forced, after the overflowing nodes it draws from were integrated;
a node is integrated after all links feeding it transported. -/
def Net.Proper (net : Net) : Event → List Event → Prop
  | .compute l, a => l < net.links ∧ ∀ e, e ∈ a → ∃ k, e = .compute k
  | .transport l early, a => l < net.links ∧ (∀ k, k < net.links → Event.compute k ∈ a) ∧
      (early = false → ∀ n, net.Draws l n → net.Overflows n → Event.integrate n ∈ a)
  | .integrate n, a => n < net.nodes ∧ ∀ l, l < net.links → net.Feeds l n → ∃ e, e ∈ a ∧ e.isTransport l

/-- Waiting among links: `l` waits for `m` when `l` draws from an overflowing node that `m` feeds. -/
def Net.Waits (net : Net) (l m : Nat) : Prop := ∃ n, net.Overflows n ∧ net.Draws l n ∧ net.Feeds m n

/-- No cycle of waiting links. -/
def Net.Acyclic (net : Net) : Prop :=
  ∃ rank : Nat → Nat, ∀ l m, l < net.links → m < net.links → net.Waits l m → rank m < rank l

end Gunns.Flow
