import Verif.Optim.Swarm

/-!
# What the particle swarm optimizer should report

Runs are numbered `0, 1, …` in the order they are sent out; `x k` is the state sent out with run `k` and `c k`
the cost that run should return.  Each epoch is `n` consecutive runs.
-/

namespace Gunns.Optim.Spec

variable {K : Type _} [Field K] [LinearOrder K] [IsStrictOrderedRing K]

/-- `b` is the best of the starting point `b0` and of the runs below `m` that satisfy `sel`: the starting
    point if no such run costs less, otherwise the earliest of the cheapest such runs. -/
def BestOf (b0 : Point K) (x : Nat → Nat → K) (c : Nat → K) (sel : Nat → Prop) (m : Nat) (b : Point K) :
    Prop :=
  (b = b0 ∧ ∀ k, k < m → sel k → b0.cost ≤ c k) ∨
  (∃ k, k < m ∧ sel k ∧ b = ⟨x k, c k, (k : Int)⟩ ∧ c k < b0.cost ∧
    (∀ k', k' < m → sel k' → c k ≤ c k') ∧ (∀ k', k' < k → sel k' → c k < c k'))

/-- Number of runs sent out in a sequence of events. -/
def sentIn : List (Ev K) → Nat
  | [] => 0
  | .run _ :: t => sentIn t + 1
  | .back _ _ :: t => sentIn t

/-- Every result that comes back is the cost of a run of the epoch in progress, in any order, and an epoch's
    runs are all back before the first run of the next epoch is sent out. -/
def Timely (n : Nat) (c : Nat → K) (t : List (Ev K)) : Prop :=
  ∀ pre e post, t = pre ++ e :: post →
    match e with
    | .run _ => n ∣ sentIn pre → ∀ k, k < sentIn pre → Ev.back (k : Int) (c k) ∈ pre
    | .back id v => ∃ k : Nat, id = (k : Int) ∧ v = c k ∧ k < sentIn pre ∧ k / n = (sentIn pre - 1) / n

/-- Sum of a list, from the left. -/
def total (fs : List ((Nat → K) → K)) (env : Nat → K) : K := (fs.map (fun f => f env)).sum

end Gunns.Optim.Spec
