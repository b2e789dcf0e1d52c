import Verif.Net.Assembly

/-!
# Model of the island functions of `Gunns` (core/Gunns.cpp)

Island numbers are a function of the node (`mNodeIslandNumbers`), island vectors a function from the
island number to a list of nodes (`mIslandVectors`).  The flat index `row*mNetworkSize+col` is written as
the matrix position `(row, col)`.
-/

namespace Gunns

variable {K : Type _} [Field K] [LinearOrder K]

/-- `mNodeIslandNumbers[node] = v`. -/
def setLabel (lab : Nat → Nat) (node v : Nat) : Nat → Nat := fun a => if a = node then v else lab a

/-- `Gunns::mergeIslands`, Gunns.cpp:1328-1335.  The arguments are passed by value. -/
def mergeIslands (N from' to' : Nat) (lab : Nat → Nat) : Nat → Nat :=
  if from' ≠ to' then
    loop (fun node lab => if from' = lab node then setLabel lab node to' else lab) N lab
  else lab

/-- Body of the `col` loop of `buildIslands` for `(row, col)`, Gunns.cpp:1278-1299. -/
def islandVisit (N : Nat) (A : Mat K) (row col : Nat) (lab : Nat → Nat) : Nat → Nat :=
  if A row col ≠ 0 then
    let minNum := lab col
    let minNum := if lab row < minNum then lab row else minNum
    let minNum := loop (fun d minNum =>
      let row2 := row + 1 + d
      if A row2 col ≠ 0 ∧ lab row2 < minNum then lab row2 else minNum) (col - (row + 1)) minNum
    let lab := loop (fun d lab =>
      let row2 := row + 1 + d
      if A row2 col ≠ 0 then mergeIslands N (lab row2) minNum lab else lab) (col - (row + 1)) lab
    let lab := mergeIslands N (lab row) minNum lab
    mergeIslands N (lab col) minNum lab
  else lab

/-- The labelling part of `Gunns::buildIslands`, Gunns.cpp:1271-1301. -/
def islandLabels (N : Nat) (A : Mat K) : Nat → Nat :=
  loop (fun row lab =>
    loop (fun d lab => islandVisit N A row (row + 1 + d) lab) (N - (row + 1)) lab) (N - 1) (fun n => n)

/-- The island vectors of `Gunns::buildIslands`, Gunns.cpp:1304-1310: `push_back` in node order. -/
def islandVectors (N : Nat) (lab : Nat → Nat) : Nat → List Nat :=
  loop (fun node vecs => fun i => if i = lab node then vecs i ++ [node] else vecs i) N (fun _ => [])

/-- `mIslandCount` and `mIslandMaxSize`, Gunns.cpp:1313-1319. -/
def islandStats (N : Nat) (vecs : Nat → List Nat) : Nat × Nat :=
  loop (fun island s =>
    let size := (vecs island).length
    (if 0 < size then s.1 + 1 else s.1, if s.2 < size then size else s.2)) N (0, 0)

/-- Copy of an island block into `mAdmittanceMatrixIsland`, Gunns.cpp:1014-1020.  The double loop that
fills a separate buffer is written in closed form. -/
def gatherIsland (v : List Nat) (A : Mat K) : Mat K := fun i j => A (v.getD i 0) (v.getD j 0)

/-- Copy of a decomposed island block back into `mAdmittanceMatrix`, Gunns.cpp:1025-1031. -/
def scatterIsland (v : List Nat) (Ai A : Mat K) : Mat K :=
  loop (fun i A => loop (fun j A => A.set (v.getD i 0) (v.getD j 0) (Ai i j)) v.length A) v.length A

/-- Outcome of the decomposition part of `buildAndSolveSystem`. -/
inductive IslandResult (K : Type _) where
  /-- decomposed matrix -/
  | ok (A : Mat K)
  /-- `TsNumericalException` in an island, with the matrix left behind -/
  | failed (island row : Nat) (A : Mat K)
  /-- division by zero (infinities or NaN) -/
  | divByZero (island : Nat)

/-- The island branch of `buildAndSolveSystem` for one island, Gunns.cpp:1011-1032, without GPU. -/
def decomposeIsland (vecs : Nat → List Nat) (island : Nat) (A : Mat K) : IslandResult K :=
  let v := vecs island
  let n := v.length
  if 0 < n then
    if 1 < n then
      match decompose (gatherIsland v A) n with
      | .ok Ai => .ok (scatterIsland v Ai A)
      | .failed row _ => .failed island row A
      | .divByZero _ => .divByZero island
    else .ok (scatterIsland v (gatherIsland v A) A)
  else .ok A

/-- The island loop of `buildAndSolveSystem`, Gunns.cpp:1010-1033: islands `0..m-1`. -/
def decomposeIslandsTo (vecs : Nat → List Nat) (A : Mat K) : Nat → IslandResult K
  | 0 => .ok A
  | m + 1 =>
    match decomposeIslandsTo vecs A m with
    | .ok B => decomposeIsland vecs m B
    | r => r

/-- Island SOLVE mode: labels and vectors from the assembled matrix `A` (Gunns.cpp:1245), decomposition
of the conditioned matrix `C`. -/
def decomposeIslands (N : Nat) (A C : Mat K) : IslandResult K :=
  decomposeIslandsTo (islandVectors N (islandLabels N A)) C N

end Gunns
