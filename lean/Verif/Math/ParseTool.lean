/-!
# The text file parser

`/repo/ms-utils/parsing/ParseTool.cpp`: `trim` (204-233), `splitLineByCharacter` (247-281) and
`parseLines` (332-424).

A string is a list over any alphabet `α`; `space` stands for `std::isspace` and `nl` for the end of
line.  A null `char*` argument is `none`.

Not modelled: opening and closing the file, i/o errors (`bad()`), NUL characters inside a line, and
`maxLineWidth < 1`.  The two `while` loops of `trim` and `splitLineByCharacter` and the loop of
`parseLines` carry fuel; running out of it is a result of its own (`none`, `running`), and for
`trim` leaves the string as it is at that point.
-/

namespace Gunns.Parse

variable {α : Type _} [DecidableEq α]

/-- The loop that erases one unwanted character at a time, ParseTool.cpp:210-220. -/
def removeLoop (rm : List α) : Nat → List α → List α
  | 0, s => s
  | n + 1, s =>
    match s.findIdx? (fun x => decide (x ∈ rm)) with
    | none => s
    | some i => removeLoop rm n (s.eraseIdx i)

/-- Erase the whitespace at the start, then at the end, ParseTool.cpp:224-229. -/
def strip (space : α → Bool) (s : List α) : List α :=
  ((s.dropWhile space).reverse.dropWhile space).reverse

/-- `ParseTool::trim`, ParseTool.cpp:204-233. -/
def trim (space : α → Bool) (rm : Option (List α)) (s : List α) : List α :=
  match rm with
  | none => strip space s
  | some r => strip space (removeLoop r s.length s)

/-- `s.find(c, i)`: the position of the first `c` at or after `i`. -/
def find (c : α) (s : List α) (i : Nat) : Option Nat :=
  ((s.drop i).findIdx? (fun x => decide (x = c))).map (· + i)

/-- The loop of `splitLineByCharacter`, ParseTool.cpp:261-280, from position `i` with the pieces `v`
already stored. -/
def splitLoop (space : α → Bool) (c : α) (s : List α) :
    Nat → Nat → List (List α) → Option (List (List α))
  | 0, _, _ => none
  | n + 1, i, v =>
    match find c s i with
    | none => some (v ++ [trim space none ((s.drop i).take s.length)])
    | some j => splitLoop space c s n (j + 1) (v ++ [trim space none ((s.drop i).take (j - i))])

/-- `ParseTool::splitLineByCharacter`, ParseTool.cpp:247-281. -/
def splitLine (space : α → Bool) (c : α) (s : List α) : Option (List (List α)) :=
  splitLoop space c s (s.length + 1) 0 []

/-- `line.find(commentChars)`: the position of the first occurrence of the whole string `m`. -/
def findSub (m : List α) : List α → Option Nat
  | [] => if m.isPrefixOf [] then some 0 else none
  | x :: t => if m.isPrefixOf (x :: t) then some 0 else (findSub m t).map (· + 1)

/-- What `parseLines` does with one line of the file, ParseTool.cpp:387-419: the stored string, or
`none` when the line is left out. -/
def cleanLine (space : α → Bool) (rm cm : Option (List α)) (raw : List α) : Option (List α) :=
  let line := trim space rm raw
  let j := match cm with
    | none => line.length
    | some m => (findSub m line).getD line.length
  let cut := line.take j
  if cut = [] then none else some (trim space none cut)

/-- The effect of `std::istream::getline`. -/
structure Got (α : Type _) where
  chars : List α
  eof : Bool
  fail : Bool
  rest : List α

/-- `theIfstream.getline(charLine, maxLineWidth)` with `n = maxLineWidth - 1` characters of room,
ParseTool.cpp:360: end of file is looked for first, then the end of line, then the room left. -/
def getline (nl : α) : Nat → List α → Got α
  | _, [] => ⟨[], true, false, []⟩
  | n, x :: t =>
    if x = nl then ⟨[], false, false, t⟩
    else match n with
      | 0 => ⟨[], false, true, x :: t⟩
      | m + 1 =>
        let r := getline nl m t
        ⟨x :: r.chars, r.eof, r.fail, r.rest⟩

/-- The outcome of parsing a file. -/
inductive Result (α : Type _) where
  | lines (v : List (List α))
  | tooLong (line : Nat)
  | running

/-- The loop of `parseLines`, ParseTool.cpp:354-420. -/
def parseLoop (space : α → Bool) (nl : α) (room : Nat) (rm cm : Option (List α)) :
    Nat → Nat → List α → List (List α) → Result α
  | 0, _, _, _ => .running
  | f + 1, k, file, v =>
    let r := getline nl room file
    if !r.eof && r.fail then .tooLong (k + 1)
    else
      let v' := v ++ (cleanLine space rm cm r.chars).toList
      if r.eof then .lines v' else parseLoop space nl room rm cm f (k + 1) r.rest v'

/-- `ParseTool::parseLines`, ParseTool.cpp:332-424. -/
def parseLines (space : α → Bool) (nl : α) (maxLineWidth : Nat) (rm cm : Option (List α))
    (file : List α) : Result α :=
  parseLoop space nl (maxLineWidth - 1) rm cm (file.length + 1) 0 file []

end Gunns.Parse
