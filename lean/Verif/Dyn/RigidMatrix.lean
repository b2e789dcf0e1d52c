import Mathlib.Tactic.IntervalCases
import Verif.Dyn.Rigid
import Verif.Dyn.EulerLemmas
import Verif.Props.Islands

/-!
# The six by six mass matrix and its decomposition
-/

set_option linter.unusedSectionVars false

namespace Gunns.Dyn

open Gunns.Spec Finset

variable {K : Type _} [Field K] [LinearOrder K] [IsStrictOrderedRing K]

/-- The mass matrix, written out. -/
def massTab (p : MassProps K) : Mat K := fun i j =>
  ([[p.mass, 0, 0, 0, p.mass * p.cm 2, -(p.mass * p.cm 1)],
    [0, p.mass, 0, -(p.mass * p.cm 2), 0, p.mass * p.cm 0],
    [0, 0, p.mass, p.mass * p.cm 1, -(p.mass * p.cm 0), 0],
    [0, -(p.mass * p.cm 2), p.mass * p.cm 1, p.ixx + p.mass * (p.cm 1 ^ 2 + p.cm 2 ^ 2),
      p.ixy - p.mass * (p.cm 0 * p.cm 1), p.ixz - p.mass * (p.cm 0 * p.cm 2)],
    [p.mass * p.cm 2, 0, -(p.mass * p.cm 0), p.ixy - p.mass * (p.cm 0 * p.cm 1),
      p.iyy + p.mass * (p.cm 0 ^ 2 + p.cm 2 ^ 2), p.iyz - p.mass * (p.cm 1 * p.cm 2)],
    [-(p.mass * p.cm 1), p.mass * p.cm 0, 0, p.ixz - p.mass * (p.cm 0 * p.cm 2),
      p.iyz - p.mass * (p.cm 1 * p.cm 2), p.izz + p.mass * (p.cm 0 ^ 2 + p.cm 1 ^ 2)]].getD i
    []).getD j 0

theorem isCmOffset_false (p : MassProps K) (h : p.isCmOffset = false) :
    p.cm 0 = 0 ∧ p.cm 1 = 0 ∧ p.cm 2 = 0 := by
  unfold MassProps.isCmOffset isNonZeroV3 at h
  rw [decide_eq_false_iff_not] at h
  push Not at h
  exact h

theorem store_moments (m ixx ixy ixz iyy iyz izz : K) (i j : Nat) (hi : i < 6) (hj : j < 6) :
    store zeroV [(0, m), (7, m), (14, m), (21, ixx), (22, ixy), (23, ixz), (27, ixy), (28, iyy),
      (29, iyz), (33, ixz), (34, iyz), (35, izz)] (i * 6 + j) =
    ([[m, 0, 0, 0, 0, 0], [0, m, 0, 0, 0, 0], [0, 0, m, 0, 0, 0], [0, 0, 0, ixx, ixy, ixz],
      [0, 0, 0, ixy, iyy, iyz], [0, 0, 0, ixz, iyz, izz]].getD i []).getD j 0 := by
  interval_cases i <;> interval_cases j <;> rfl

theorem store_offset (A s t : Arr K) (i j : Nat) (hi : i < 6) (hj : j < 6) :
    store A [(19, s 1), (20, s 2), (24, s 3), (26, s 5), (30, s 6), (31, s 7),
      (4, - s 1), (5, - s 2), (9, - s 3), (11, - s 5), (15, - s 6), (16, - s 7),
      (21, A 21 - t 0), (22, A 22 - t 1), (23, A 23 - t 2), (27, A 27 - t 3), (28, A 28 - t 4),
      (29, A 29 - t 5), (33, A 33 - t 6), (34, A 34 - t 7), (35, A 35 - t 8)] (i * 6 + j) =
    ([[A 0, A 1, A 2, A 3, - s 1, - s 2], [A 6, A 7, A 8, - s 3, A 10, - s 5],
      [A 12, A 13, A 14, - s 6, - s 7, A 17], [A 18, s 1, s 2, A 21 - t 0, A 22 - t 1, A 23 - t 2],
      [s 3, A 25, s 5, A 27 - t 3, A 28 - t 4, A 29 - t 5],
      [s 6, s 7, A 32, A 33 - t 6, A 34 - t 7, A 35 - t 8]].getD i []).getD j 0 := by
  interval_cases i <;> interval_cases j <;> rfl

theorem skew_square (c : Arr K) (m : K) (k : Nat) (hk : k < 9) :
    multiplyMM (scaleV (skew c) m) (skew c) 3 k =
    [-(m * (c 1 ^ 2 + c 2 ^ 2)), m * (c 0 * c 1), m * (c 0 * c 2), m * (c 0 * c 1),
      -(m * (c 0 ^ 2 + c 2 ^ 2)), m * (c 1 * c 2), m * (c 0 * c 2), m * (c 1 * c 2),
      -(m * (c 0 ^ 2 + c 1 ^ 2))].getD k 0 := by
  interval_cases k <;> simp [multiplyMM, loop, scaleV, skew, arr] <;> ring

theorem asMat_massMatrix (p : MassProps K) (i j : Nat) (hi : i < 6) (hj : j < 6) :
    asMat 6 (massMatrix p) i j = massTab p i j := by
  unfold asMat massMatrix
  cases h : p.isCmOffset with
  | false =>
    obtain ⟨h0, h1, h2⟩ := isCmOffset_false p h
    simp only [Bool.false_eq_true, if_false]
    rw [store_moments _ _ _ _ _ _ _ i j hi hj]
    unfold massTab
    rw [h0, h1, h2]
    simp
  | true =>
    simp only [if_true]
    rw [store_offset _ _ _ i j hi hj]
    have e := fun k hk => skew_square p.cm p.mass k hk
    rw [e 0 (by omega), e 1 (by omega), e 2 (by omega), e 3 (by omega), e 4 (by omega),
      e 5 (by omega), e 6 (by omega), e 7 (by omega), e 8 (by omega)]
    interval_cases i <;> interval_cases j <;>
      simp [massTab, store, Vect.set, zeroV, scaleV, skew, arr] <;> ring

theorem massTab_symm (p : MassProps K) : Symm 6 (massTab p) := by
  intro i j hi hj
  interval_cases i <;> interval_cases j <;> rfl

/-! ### What the solver assembles -/

theorem rigidView_mapped (adm src : Arr K) : (rigidView adm src).Mapped 6 where
  size := rfl
  nodes := by intro q hq; exact le_of_lt hq
  map := ⟨_, rfl⟩

/-- The assembled matrix. -/
def sysMat (p : MassProps K) : Mat K := asMat 6 (buildAdmittance 6 [rigidView (massMatrix p) zeroV])

theorem sum_pick (n : Nat) (f : Nat → K) (i : Nat) (hi : i < n) :
    ∑ q ∈ range n, (if q = i then f q else 0) = f i := by
  rw [sum_ite_eq' (range n) i f, if_pos (mem_range.mpr hi)]

theorem sysMat_eq (p : MassProps K) (i j : Nat) (hi : i < 6) (hj : j < 6) :
    sysMat p i j = massTab p i j := by
  unfold sysMat
  rw [asMat_build 6 _ (by
    intro l hl
    rw [List.mem_singleton] at hl
    rw [hl]
    exact rigidView_mapped _ _) i j hi hj]
  simp only [List.map_cons, List.map_nil, List.sum_cons, List.sum_nil, add_zero]
  rw [← asMat_massMatrix p i j hi hj]
  unfold Element.stamp LinkView.element rigidView asMat
  have : ∀ a ∈ range 6, (∑ q ∈ range 6, if a = i ∧ q = j then massMatrix p (a * 6 + q) else 0) =
      if a = i then massMatrix p (a * 6 + j) else 0 := by
    intro a _
    by_cases ha : a = i
    · simp only [ha, true_and, if_true]
      exact sum_pick 6 (fun q => massMatrix p (i * 6 + q)) j hj
    · simp [ha]
  rw [sum_congr rfl this]
  exact sum_pick 6 (fun a => massMatrix p (a * 6 + j)) i hi

theorem sysMat_symm (p : MassProps K) : Symm 6 (sysMat p) := by
  intro i j hi hj
  rw [sysMat_eq p i j hi hj, sysMat_eq p j i hj hi]
  exact massTab_symm p i j hi hj

theorem buildSource_rigid (adm src : Arr K) (i : Nat) (hi : i < 6) :
    buildSource 6 [rigidView adm src] i = src i := by
  rw [buildSource_eq 6 _ i hi]
  simp only [List.map_cons, List.map_nil, List.sum_cons, List.sum_nil, add_zero, rigidView]
  exact sum_pick 6 src i hi

/-- The matrix that is decomposed. -/
def condMat (p : MassProps K) : Mat K := conditionAdmittance 6 (sysMat p)

theorem valid_pos (p : MassProps K) (h : p.rejected = false) :
    (dblEps : K) ≤ p.mass ∧ dblEps ≤ p.ixx ∧ dblEps ≤ p.iyy ∧ dblEps ≤ p.izz ∧
    p.ixy ≤ 0 ∧ p.ixz ≤ 0 ∧ p.iyz ≤ 0 := by
  unfold MassProps.rejected at h
  simpa [and_assoc] using h

theorem dblEps_pos : (0 : K) < dblEps := by unfold dblEps; positivity

theorem massTab_diag (p : MassProps K) (h : p.rejected = false) (i : Nat) (hi : i < 6) :
    dblEps ≤ massTab p i i := by
  obtain ⟨h1, h2, h3, h4, -⟩ := valid_pos p h
  have hm : 0 ≤ p.mass := dblEps_pos.le.trans h1
  have e : ∀ a b c : K, dblEps ≤ a → dblEps ≤ a + p.mass * (b ^ 2 + c ^ 2) := by
    intro a b c ha
    have : 0 ≤ p.mass * (b ^ 2 + c ^ 2) := mul_nonneg hm (by positivity)
    linarith
  interval_cases i
  · exact h1
  · exact h1
  · exact h1
  · exact e _ _ _ h2
  · exact e _ _ _ h3
  · exact e _ _ _ h4

theorem condMat_off (p : MassProps K) (i j : Nat) (hi : i < 6) (hj : j < 6) (hij : i ≠ j) :
    condMat p i j = massTab p i j := by
  unfold condMat
  rw [Props.c09_condition_entries, if_neg (fun h => hij h.1), sysMat_eq p i j hi hj]

theorem rowSum_sysMat (p : MassProps K) (i : Nat) (hi : i < 6) :
    rowSum 6 (sysMat p) i = rowSum 6 (massTab p) i := by
  unfold rowSum
  apply sum_congr rfl
  intro j hj
  exact sysMat_eq p i j hi (mem_range.mp hj)

theorem condMat_diag (p : MassProps K) (h : p.rejected = false) (i : Nat) (hi : i < 6) :
    massTab p i i ≤ condMat p i i ∧ condMat p i i ≤ massTab p i i * (1 + 1 / 10 ^ 15) ∧
    (dblEps ≤ |rowSum 6 (massTab p) i| → condMat p i i = massTab p i i) := by
  unfold condMat
  have hd := massTab_diag p h i hi
  have he := dblEps_pos (K := K)
  rw [Props.c09_condition_entries, rowSum_sysMat p i hi, sysMat_eq p i i hi hi]
  have e2 : (1 / 2 ^ 52 : K) = dblEps := rfl
  rw [e2, max_eq_left hd]
  by_cases hr : |rowSum 6 (massTab p) i| < dblEps
  · rw [if_pos ⟨rfl, hi, hr⟩]
    have : 0 ≤ massTab p i i / 10 ^ 15 := div_nonneg (he.le.trans hd) (by positivity)
    refine ⟨by linarith, le_of_eq (by ring), fun hc => absurd hr (not_lt.mpr hc)⟩
  · rw [if_neg (fun hc => hr hc.2.2)]
    refine ⟨le_rfl, ?_, fun _ => rfl⟩
    have : 0 ≤ massTab p i i * (1 / 10 ^ 15) := mul_nonneg (he.le.trans hd) (by positivity)
    linarith

theorem condMat_symm (p : MassProps K) : Symm 6 (condMat p) := by
  intro i j hi hj
  by_cases hij : i = j
  · rw [hij]
  · rw [condMat_off p i j hi hj hij, condMat_off p j i hj hi (Ne.symm hij)]
    exact massTab_symm p i j hi hj

/-! ### Islands do not matter -/

theorem decomposeIslands_iff (p : MassProps K) (h : p.rejected = false) (B : Mat K) :
    decomposeIslands 6 (sysMat p) (condMat p) = .ok B ↔ decompose (condMat p) 6 = .ok B := by
  constructor
  · intro hd
    refine Props.c11_solve_implies_off 6 (sysMat p) B (sysMat_symm p) ?_ hd
    intro i hi _
    exact dblEps_pos.trans_le ((massTab_diag p h i hi).trans (condMat_diag p h i hi).1)
  · exact Props.c11_off_implies_solve 6 (sysMat p) B (sysMat_symm p)

theorem decomposeIslandsTo_div {N : Nat} {C : Mat K} {lab : Nat → Nat}
    (hz : ∀ i j, i < N → j < N → lab i ≠ lab j → C i j = 0) (hC : ∀ i, i < N → C i i ≠ 0) (m : Nat)
    (L : Nat) : decomposeIslandsTo (islandVectors N lab) C m ≠ .divByZero L := by
  induction m with
  | zero => intro h; cases h
  | succ m ih =>
    rw [decomposeIslandsTo]
    cases hr : decomposeIslandsTo (islandVectors N lab) C m with
    | failed a b c => intro h; cases h
    | divByZero a => rw [hr] at ih; intro h; exact ih h
    | ok B =>
      dsimp only
      obtain ⟨-, -, h3⟩ := (decomposeIslandsTo_spec hz m).1 B hr
      have e := enum_vector N lab m
      unfold decomposeIsland
      dsimp only
      split
      · split
        · rename_i h1 h2
          cases hd : decompose (gatherIsland (islandVectors N lab m) B)
              (islandVectors N lab m).length with
          | ok Ai => intro h; cases h
          | failed a b => intro h; cases h
          | divByZero a =>
            obtain ⟨-, -, hq⟩ := (decomposeTo_spec _ _).2.2 a hd
            exfalso
            have hl := e.lt 0 (by omega)
            have hlab := e.labEq 0 (by omega)
            have : B ((islandVectors N lab m).getD 0 0) ((islandVectors N lab m).getD 0 0) = 0 := hq
            rw [h3 _ _ (by rintro ⟨-, -, -, hlt⟩; omega)] at this
            exact hC _ hl this
        · intro h; cases h
      · intro h; cases h

theorem decomposeIslands_failed (p : MassProps K) (h : p.rejected = false)
    (hn : ∀ B, decompose (condMat p) 6 ≠ .ok B) :
    ∃ L r B, decomposeIslands 6 (sysMat p) (condMat p) = .failed L r B := by
  cases hd : decomposeIslands 6 (sysMat p) (condMat p) with
  | ok B => exact absurd ((decomposeIslands_iff p h B).mp hd) (hn B)
  | failed L r B => exact ⟨L, r, B, rfl⟩
  | divByZero L =>
    exfalso
    refine decomposeIslandsTo_div (Props.condition_cross 6 (sysMat p) (sysMat_symm p)) ?_ 6 L hd
    intro i hi
    exact (dblEps_pos.trans_le ((massTab_diag p h i hi).trans (condMat_diag p h i hi).1)).ne'

end Gunns.Dyn
