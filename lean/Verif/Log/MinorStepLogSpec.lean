import Verif.Log.MinorStepLog

/-!
# What the minor step log should hold

`Entry` is what was said about one minor step; a field is `none` if nothing was recorded. `track` keeps the
list of all entries since the recording was last started, oldest first, with no bound on its length.
-/

namespace Gunns.MinorLog

variable {V : Type _}

/-- What was recorded about one minor step. -/
structure Entry (V : Type _) where
  major : Int
  minor : Int
  step : Option (Int × StepResult)
  potential : Option V
  conv : Option V
  contrib : Option V
  links : Nat → LinkResult

/-- A minor step just begun: nothing recorded, all links agree. -/
def Entry.begun (major minor : Int) : Entry V :=
  { major := major, minor := minor, step := none, potential := none, conv := none, contrib := none,
    links := fun _ => .confirm }

/-- Change the newest entry. -/
def editLast (f : Entry V → Entry V) : List (Entry V) → List (Entry V)
  | [] => []
  | [e] => [f e]
  | e :: es => e :: editLast f es

/-- The recording is started anew by this operation: at the start of a major step, if the log is paused and
a recording is commanded; and when the capacity is changed. -/
def Restarts (s : Log V) : Op V → Prop
  | .beginMajor => s.size ≠ 0 ∧ s.mode = .paused ∧ (s.command = .recordAuto ∨ s.command = .recordSnap)
  | .freeze => s.size ≠ s.logSteps ∧ s.logSteps ≠ 0
  | _ => False

instance (s : Log V) (o : Op V) : Decidable (Restarts s o) := by
  cases o <;> unfold Restarts <;> infer_instance

/-- The entries after an operation in a log whose state before it is `s`. -/
def track (s : Log V) (o : Op V) (es : List (Entry V)) : List (Entry V) :=
  if Restarts s o then []
  else if s.recording then
    match o with
    | .beginMinor a b => es ++ [.begun a b]
    | .potential v => editLast (fun e => { e with potential := some v }) es
    | .convergence v => editLast (fun e => { e with conv := some v }) es
    | .contributions v => editLast (fun e => { e with contrib := some v }) es
    | .linkResult l r => editLast (fun e => { e with links := fun k => if k = l then r else e.links k }) es
    | .stepResult d r => editLast (fun e => { e with step := some (d, r) }) es
    | _ => es
  else es

/-- The entries after a history. -/
def trackAll (s : Log V) (es : List (Entry V)) : List (Op V) → List (Entry V)
  | [] => es
  | o :: os =>
    match o.run s with
    | some t => trackAll t (track s o es) os
    | none => es

/-- A frame of the buffer shows an entry: it agrees in all that was recorded. -/
structure Shows (n : Nat) (f : Frame V) (e : Entry V) : Prop where
  major : f.major = e.major
  minor : f.minor = e.minor
  step : ∀ d r, e.step = some (d, r) → f.decomp = d ∧ f.result = r
  potential : ∀ v, e.potential = some v → f.potential = v
  conv : ∀ v, e.conv = some v → f.conv = v
  contrib : ∀ v, e.contrib = some v → f.contrib = v
  links : ∀ l, l < n → f.links l = e.links l

/-- Operations that name an existing link. -/
def OpOk (n : Nat) : Op V → Prop
  | .linkResult l _ => l < n
  | _ => True

end Gunns.MinorLog
