import Verif.Elect.Switch

/-!
# Vocabulary for the statements about switches

Nothing here refers to the functions of the model, only to its data.
-/

namespace Gunns.Sw

variable {K : Type _} [Field K] [LinearOrder K]

/-- The trips that open the switch, as opposed to the ones that reset voltage trips. -/
def Which.opens : Which → Prop
  | .uv | .ov | .posAmps | .negAmps => True
  | .uvReset | .ovReset => False

/-- Current and voltage are beyond the limit of that kind. -/
def Beyond (s : Switch K) (current voltage : K) : Which → Prop
  | .uv => voltage < s.uv.limit
  | .ov => s.ov.limit < voltage
  | .posAmps => s.posAmps.limit < current
  | .negAmps => current < s.negAmps.limit
  | .uvReset => s.uvReset.limit < voltage
  | .ovReset => voltage < s.ovReset.limit

/-- That trip has a reason to act: it is in use and not inhibited, and forced or beyond its limit. -/
def Due (s : Switch K) (current voltage : K) (w : Which) : Prop :=
  (s.get w).inhibit = false ∧ (s.get w).limit ≠ 0 ∧ 1 ≤ (s.get w).priority ∧
  ((s.get w).force = true ∨ Beyond s current voltage w)

/-- Its turn has come: forced, or the converged step is its priority. -/
def Turn (s : Switch K) (n : Nat) (w : Which) : Prop := (s.get w).force = true ∨ n = (s.get w).priority

/-- The switch looks for trips: closed command, not tripped, not failed closed. -/
def Watching (s : Switch K) : Prop :=
  s.command = true ∧ s.failClosed = false ∧ ∀ w : Which, w.opens → (s.get w).tripped = false

/-- The switch looks for recovery of the voltage: tripped by voltage only and not failed open. -/
def Recovering (s : Switch K) : Prop :=
  (s.uv.tripped = true ∨ s.ov.tripped = true) ∧ s.failOpen = false ∧
  s.posAmps.tripped = false ∧ s.negAmps.tripped = false

/-- The reset logic of the voltage trip that is latched. -/
def ResetOf (s : Switch K) : Which → Which → Prop
  | .uv, .uvReset => s.uv.tripped = true
  | .ov, .ovReset => s.ov.tripped = true
  | _, _ => False

/-- States reached from initialisation by some operations. -/
def Reached (s : Switch K) : Prop := ∃ d s0 ops, make d = some s0 ∧ s = s0.run ops

end Gunns.Sw
