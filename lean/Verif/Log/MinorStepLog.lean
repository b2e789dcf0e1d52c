import Verif.Base.Loop

/-!
# The minor step log

Model of `GunnsMinorStepLog` (core/GunnsMinorStepLog.cpp and .hh), the logger that the solver feeds while it
iterates (core/Gunns.cpp:744-943).

Simplifications:
* a recorded vector (potentials, convergence, contributions of all links) is one value of an arbitrary
  type `V`; the element-wise `assign` of a vector of fixed length is one assignment;
* the capacity is below `2^31`, so that the index arithmetic of `headOffset` in `int` is exact;
* a file is identified by the major step number in its name; files written are kept in `disk`, newest first.

An access to `mBuffer` out of bounds is the outcome `none`.
-/

namespace Gunns.MinorLog

/-- `GunnsMinorStepData::SolutionResults` (GunnsMinorStepLog.hh:70-78). -/
inductive StepResult
  | success | confirm | delay | reject | minorLimit | decompLimit | mathFail
  deriving DecidableEq, Repr

/-- `GunnsBasicLink::SolutionResult`. -/
inductive LinkResult
  | confirm | reject | delay
  deriving DecidableEq, Repr

/-- `LogCommands` (GunnsMinorStepLog.hh:107-112). -/
inductive Command
  | pause | recordAuto | recordSnap | snap
  deriving DecidableEq, Repr

/-- `LogModes` (GunnsMinorStepLog.hh:141-146). -/
inductive Mode
  | paused | recordingAuto | recordingSnap | writingFile
  deriving DecidableEq, Repr

/-- `GunnsMinorStepData` (GunnsMinorStepLog.hh:62-99): one recorded minor step. -/
structure Frame (V : Type _) where
  major : Int
  minor : Int
  decomp : Int
  result : StepResult
  potential : V
  conv : V
  contrib : V
  links : Nat → LinkResult

/-- What `updateAsync` puts in a file: the table, or the text saying that formatting failed. -/
inductive Output (V : Type _)
  | table (rows : List (Frame V))
  | failure

/-- The attributes of `GunnsMinorStepLog` (GunnsMinorStepLog.hh:148-170). `len` is `mBuffer.size()`. -/
structure Log (V : Type _) where
  command : Command
  logSteps : Nat
  mode : Mode
  recording : Bool
  buf : Nat → Frame V
  len : Nat
  size : Nat
  head : Nat
  valid : Nat
  numLinks : Nat
  filename : Option Int
  disk : List (Int × Output V)

variable {V : Type _}

/-- `mSize - 1` in unsigned arithmetic. -/
def predSize (n : Nat) : Nat := if n = 0 then 4294967295 else n - 1

/-- `startLogging` (GunnsMinorStepLog.hh:240-245). -/
def startLogging (s : Log V) : Log V :=
  { s with
    head := predSize s.size
    valid := 0
    recording := true }

/-- `stopLogging` (GunnsMinorStepLog.hh:251-254). -/
def stopLogging (s : Log V) : Log V := { s with recording := false }

/-- Read access to `head()` (GunnsMinorStepLog.hh:261-264). -/
def headFrame (s : Log V) : Option (Frame V) := if s.head < s.len then some (s.buf s.head) else none

/-- Write access to `head()`. -/
def onHead (f : Frame V → Frame V) (s : Log V) : Option (Log V) :=
  if s.head < s.len then
    some { s with buf := fun i => if i = s.head then f (s.buf i) else s.buf i }
  else none

/-- `initiateDump` (GunnsMinorStepLog.cpp:618-625). -/
def initiateDump (s : Log V) : Option (Log V) := do
  let h ← headFrame s
  return { stopLogging s with
    mode := .writingFile
    filename := some h.major }

/-- `updateFreeze` (GunnsMinorStepLog.cpp:471-484). -/
def updateFreeze (s : Log V) : Log V :=
  if s.size ≠ s.logSteps ∧ 0 < s.logSteps ∧ 0 < s.len then
    startLogging { s with
      buf := fun _ => s.buf 0
      len := s.logSteps
      size := s.logSteps }
  else s

/-- The log as constructed (GunnsMinorStepLog.cpp:210-225). -/
def construct (command : Command) (logSteps : Nat) (f : Frame V) : Log V :=
  { command := command, logSteps := logSteps, mode := .paused, recording := false, buf := fun _ => f, len := 0,
    size := 0, head := 0, valid := 0, numLinks := 0, filename := none, disk := [] }

/-- `validate` (GunnsMinorStepLog.cpp:497-537): `true` if it throws. -/
def invalid (s : Log V) (nameEmpty : Bool) (networkSize numLinks : Int) : Bool :=
  nameEmpty || decide (networkSize < 1) || decide (numLinks < 1) || decide (s.command = .snap) ||
    (decide (s.logSteps = 0) && (decide (s.command = .recordAuto) || decide (s.command = .recordSnap)))

/-- `initialize` (GunnsMinorStepLog.cpp:244-264) of a newly constructed log; `f` is the frame made by the
constructor of `GunnsMinorStepData`. `none` if `validate` throws. -/
def initLog (s : Log V) (nameEmpty : Bool) (networkSize numLinks : Int) (f : Frame V) : Option (Log V) :=
  if invalid s nameEmpty networkSize numLinks then none
  else
    some (updateFreeze { s with
      buf := fun i => if i = s.len then f else s.buf i
      len := s.len + 1
      head := predSize s.size
      valid := 0
      numLinks := numLinks.toNat })

/-- The first statement of `beginMajorStep` (GunnsMinorStepLog.cpp:275-277). -/
def checkSize (s : Log V) : Log V :=
  if s.size = 0 then
    { s with
      command := .pause
      mode := .paused }
  else s

/-- `beginMajorStep` (GunnsMinorStepLog.cpp:273-314). -/
def beginMajorStep (s : Log V) : Option (Log V) :=
  let s := checkSize s
  if s.mode ≠ .writingFile then
    match s.command with
    | .pause => some { stopLogging s with mode := .paused }
    | .recordAuto =>
      some { (if s.mode = .paused then startLogging s else s) with mode := .recordingAuto }
    | .recordSnap =>
      some { (if s.mode = .paused then startLogging s else s) with mode := .recordingSnap }
    | .snap =>
      initiateDump { s with
        command :=
          if s.mode = .paused then .pause
          else if s.mode = .recordingAuto then .recordAuto
          else .recordSnap }
  else some s

/-- `step` (GunnsMinorStepLog.hh:220-231). -/
def step (s : Log V) : Log V :=
  if s.recording then
    { s with
      head := if s.size ≤ s.head + 1 then 0 else s.head + 1
      valid := if s.valid < s.size then s.valid + 1 else s.valid }
  else s

/-- `recordLinkResult` (GunnsMinorStepLog.cpp:389-394). -/
def recordLinkResult (link : Nat) (r : LinkResult) (s : Log V) : Option (Log V) :=
  if s.recording then
    if link < s.numLinks then
      onHead (fun f => { f with links := fun l => if l = link then r else f.links l }) s
    else none
  else some s

/-- `recordAllLinksResult` (GunnsMinorStepLog.cpp:402-407). -/
def recordAllLinksResult (r : LinkResult) (s : Log V) : Option (Log V) :=
  loop (fun link t => t.bind (recordLinkResult link r)) s.numLinks (some s)

/-- `beginMinorStep` (GunnsMinorStepLog.cpp:327-335). -/
def beginMinorStep (major minor : Int) (s : Log V) : Option (Log V) :=
  if s.recording then
    (onHead (fun f => { f with
      major := major
      minor := minor }) (step s)).bind (recordAllLinksResult .confirm)
  else some s

/-- `recordPotential` (GunnsMinorStepLog.cpp:343-348). -/
def recordPotential (v : V) (s : Log V) : Option (Log V) :=
  if s.recording then onHead (fun f => { f with potential := v }) s else some s

/-- `recordNodesConvergence` (GunnsMinorStepLog.cpp:356-361). -/
def recordNodesConvergence (v : V) (s : Log V) : Option (Log V) :=
  if s.recording then onHead (fun f => { f with conv := v }) s else some s

/-- `recordLinkContributions` (GunnsMinorStepLog.cpp:367-380); `v` is what the links hold. -/
def recordLinkContributions (v : V) (s : Log V) : Option (Log V) :=
  if s.recording then onHead (fun f => { f with contrib := v }) s else some s

/-- `recordStepResult` (GunnsMinorStepLog.cpp:418-424). -/
def recordStepResult (decomp : Int) (r : StepResult) (s : Log V) : Option (Log V) :=
  if s.recording then
    onHead (fun f => { f with
      decomp := decomp
      result := r }) s
  else some s

/-- `endMajorStep` (GunnsMinorStepLog.cpp:432-437). -/
def endMajorStep (s : Log V) : Option (Log V) :=
  if s.mode = .recordingAuto then do
    let h ← headFrame s
    if h.result ≠ .success then initiateDump s else some s
  else some s

/-- The index `headOffset(offset)` reads (GunnsMinorStepLog.hh:274-284). -/
def headOffset (s : Log V) (offset : Int) : Int :=
  let index : Int := s.head + offset
  if index < 0 then index + s.size
  else if (s.size : Int) ≤ index then index - s.size
  else index

/-- An access `mBuffer[index]`. -/
def frameAt (s : Log V) (index : Int) : Option (Frame V) :=
  if 0 ≤ index ∧ index < s.len then some (s.buf index.toNat) else none

/-- `renderOutput` (GunnsMinorStepLog.cpp:577-611): the rows of the table, for `j = 1 - mNumValidSteps … 0`. -/
def renderOutput (s : Log V) : Option (Output V) :=
  if !s.recording then do
    let _ ← frameAt s 0
    let rows ← (List.range s.valid).mapM (fun i : Nat => frameAt s (headOffset s (1 - (s.valid : Int) + (i : Int))))
    return .table rows
  else some .failure

/-- `updateAsync` (GunnsMinorStepLog.cpp:444-460); `ok` if the file can be opened. -/
def updateAsync (ok : Bool) (s : Log V) : Option (Log V) :=
  match s.filename with
  | none => some s
  | some m =>
    if ok then do
      let o ← renderOutput s
      return { s with
        disk := (m, o) :: s.disk
        filename := none
        mode := .paused }
    else
      some { s with
        filename := none
        mode := .paused }

/-- What can happen to a log: the user changes the command or the number of steps to hold, the solver makes
its calls, the asynchronous job runs, the simulation is frozen. -/
inductive Op (V : Type _)
  | command (c : Command)
  | logSteps (n : Nat)
  | beginMajor
  | beginMinor (major minor : Int)
  | potential (v : V)
  | convergence (v : V)
  | contributions (v : V)
  | linkResult (link : Nat) (r : LinkResult)
  | stepResult (decomp : Int) (r : StepResult)
  | endMajor
  | async (ok : Bool)
  | freeze

/-- One operation. -/
def Op.run (s : Log V) : Op V → Option (Log V)
  | .command c => some { s with command := c }
  | .logSteps n => some { s with logSteps := n }
  | .beginMajor => beginMajorStep s
  | .beginMinor a b => beginMinorStep a b s
  | .potential v => recordPotential v s
  | .convergence v => recordNodesConvergence v s
  | .contributions v => recordLinkContributions v s
  | .linkResult l r => recordLinkResult l r s
  | .stepResult d r => recordStepResult d r s
  | .endMajor => endMajorStep s
  | .async ok => updateAsync ok s
  | .freeze => some (updateFreeze s)

/-- A history. -/
def runAll (s : Log V) : List (Op V) → Option (Log V)
  | [] => some s
  | o :: os => (o.run s).bind (fun t => runAll t os)

end Gunns.MinorLog
