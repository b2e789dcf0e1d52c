import Verif.Net.IslandSolveLemmas
import Verif.Props.Assembly

/-!
# Properties C10, C11: islands
-/

set_option linter.unusedSectionVars false

namespace Gunns.Props

open Finset Gunns.Spec

variable {K : Type _} [Field K] [LinearOrder K] [IsStrictOrderedRing K]

/-! ## Sample: six nodes, the islands {0, 3, 4}, {1, 2} and {5}

Node 3 and node 0 are only joined through node 4, so that their labels are merged late. -/

/-- The sample matrix. -/
def sampleIslands : Mat ℚ := ofRows
  [[2, 0, 0, 0, -2, 0], [0, 3, -3, 0, 0, 0], [0, -3, 4, 0, 0, 0], [0, 0, 0, 5, -1, 0],
   [-2, 0, 0, -1, 3, 0], [0, 0, 0, 0, 0, 7]]

example : (List.range 6).map (islandLabels 6 sampleIslands) = [0, 1, 1, 0, 0, 5] := by decide +kernel

/-! ## C10 -/

/-- **C10.** Two nodes carry the same island number exactly when a path of non-zero admittances joins
them. -/
theorem c10_same_island_iff_connected (N : Nat) (A : Mat K) (a b : Nat) (ha : a < N) (hb : b < N) :
    islandLabels N A a = islandLabels N A b ↔ Connected N A a b :=
  labels_connected N A a b ha hb

example : Connected 6 sampleIslands 0 3 ∧ ¬ Connected 6 sampleIslands 0 2 := by
  rw [← c10_same_island_iff_connected 6 _ 0 3 (by omega) (by omega),
    ← c10_same_island_iff_connected 6 _ 0 2 (by omega) (by omega)]
  constructor <;> decide +kernel

/-- **C10.** The island number is the smallest node of the island. -/
theorem c10_label_is_smallest (N : Nat) (A : Mat K) (a : Nat) (ha : a < N) :
    Connected N A a (islandLabels N A a) ∧ ∀ b, Connected N A a b → islandLabels N A a ≤ b := by
  obtain ⟨h, -⟩ := labels_inv N A
  refine ⟨h.conn a ha, fun b hb => ?_⟩
  have hbN := connected_lt hb ha
  rw [(labels_connected N A a b ha hbN).mpr hb]
  exact h.le b

example : islandLabels 6 sampleIslands 4 = 0 := by decide +kernel

/-- **C10.** The island vectors are strictly increasing lists; vector `i` has exactly the nodes with island
number `i`, so that each node is in exactly one of them. -/
theorem c10_vectors_partition (N : Nat) (A : Mat K) (i : Nat) :
    (islandVectors N (islandLabels N A) i).Pairwise (· < ·) ∧
    ∀ x, x ∈ islandVectors N (islandLabels N A) i ↔ x < N ∧ islandLabels N A x = i := by
  rw [islandVectors_eq]
  exact ⟨List.Pairwise.filter _ List.pairwise_lt_range, fun x => by simp⟩

example : islandVectors 6 (islandLabels 6 sampleIslands) 0 = [0, 3, 4] := by decide +kernel

/-- **C10.** The island count is the number of different islands, and the maximum size the size of the
largest one. -/
theorem c10_stats (N : Nat) (A : Mat K) :
    let vecs := islandVectors N (islandLabels N A)
    (islandStats N vecs).1 = ((range N).image (islandLabels N A)).card ∧
    (∀ i, i < N → (vecs i).length ≤ (islandStats N vecs).2) ∧
    (1 ≤ N → ∃ i, i < N ∧ (vecs i).length = (islandStats N vecs).2) := by
  intro vecs
  obtain ⟨h1, h2, h3⟩ := islandStats_eq N vecs
  obtain ⟨hl, -⟩ := labels_inv N A
  refine ⟨?_, h2, ?_⟩
  · rw [h1]
    have e : (range N).image (islandLabels N A) = (range N).filter (fun i => vecs i ≠ []) := by
      ext i
      rw [mem_image, Finset.mem_filter, mem_range]
      constructor
      · rintro ⟨x, hx, rfl⟩
        rw [mem_range] at hx
        refine ⟨lt_of_le_of_lt (hl.le x) hx, ?_⟩
        exact List.ne_nil_of_mem (((c10_vectors_partition N A _).2 x).mpr ⟨hx, rfl⟩)
      · rintro ⟨hi, hne⟩
        obtain ⟨x, hx⟩ := List.exists_mem_of_ne_nil _ hne
        obtain ⟨hx1, hx2⟩ := ((c10_vectors_partition N A i).2 x).mp hx
        exact ⟨x, mem_range.mpr hx1, hx2⟩
    rw [e]
    rfl
  · intro hN
    rcases h3 with h | h
    · have h0 := h2 0 (by omega)
      exact ⟨0, by omega, by omega⟩
    · exact h

example : islandStats 6 (islandVectors 6 (islandLabels 6 sampleIslands)) = (3, 3) := by decide +kernel

/-! ## C11 -/

theorem condition_cross (N : Nat) (A : Mat K) (hs : Symm N A) (i j : Nat) (hi : i < N) (hj : j < N)
    (h : islandLabels N A i ≠ islandLabels N A j) : conditionAdmittance N A i j = 0 := by
  rw [c09_condition_entries, if_neg (by rintro ⟨rfl, -⟩; exact h rfl)]
  obtain ⟨-, h2⟩ := labels_inv N A
  by_contra hA
  rcases lt_trichotomy i j with h' | h' | h'
  · exact h (h2 i j h' hj hA)
  · subst h'; exact h rfl
  · rw [hs i j hi hj] at hA
    exact h (h2 j i h' hi hA).symm

/-- **C11.** If the decomposition of the whole matrix succeeds then the decomposition by islands succeeds
and leaves the very same matrix, term by term. -/
theorem c11_off_implies_solve (N : Nat) (A B : Mat K) (hs : Symm N A)
    (h : decompose (conditionAdmittance N A) N = .ok B) :
    decomposeIslands N A (conditionAdmittance N A) = .ok B := by
  have hz := condition_cross N A hs
  obtain ⟨hl, -⟩ := labels_inv N A
  rw [decompose_ok_iff] at h
  obtain ⟨⟨h0, h1⟩, hB⟩ := h
  unfold decomposeIslands
  rw [decomposeIslandsTo_ok_iff hz hl.le]
  refine ⟨?_, hB⟩
  intro L hL h2
  have e := enum_vector N (islandLabels N A) L
  have hp : ∀ x, x < N → 2 ≤ N → piv (conditionAdmittance N A) x ≠ 0 := by
    intro x hx hN
    by_cases hx0 : x = 0
    · subst hx0; exact h0 hN
    · exact (h1 x (by omega) hx).ne'
  have m01 := e.mono 0 1 (by omega) (by omega)
  have l1 := e.lt 1 (by omega)
  refine ⟨hp _ (e.lt 0 (by omega)) (by omega), ?_⟩
  intro a ha1 ha2
  have hm := e.mono 0 a (by omega) ha2
  exact h1 ((islandVectors N (islandLabels N A) L).getD a 0) (by omega) (e.lt a ha2)

/-- **C11.** Conversely, if the decomposition by islands succeeds and the diagonal terms that start an
island are positive, then the decomposition of the whole matrix succeeds with the very same matrix. -/
theorem c11_solve_implies_off (N : Nat) (A B : Mat K) (hs : Symm N A)
    (hd : ∀ i, i < N → islandLabels N A i = i → 0 < conditionAdmittance N A i i)
    (h : decomposeIslands N A (conditionAdmittance N A) = .ok B) :
    decompose (conditionAdmittance N A) N = .ok B := by
  have hz := condition_cross N A hs
  obtain ⟨hl, -⟩ := labels_inv N A
  unfold decomposeIslands at h
  rw [decomposeIslandsTo_ok_iff hz hl.le] at h
  obtain ⟨hp, hB⟩ := h
  have hpos : ∀ x, x < N → 0 < piv (conditionAdmittance N A) x := by
    intro x hx
    obtain ⟨L, hL⟩ : ∃ L, islandLabels N A x = L := ⟨_, rfl⟩
    have hLN : L < N := hL ▸ lt_of_le_of_lt (hl.le x) hx
    have e := enum_vector N (islandLabels N A) L
    obtain ⟨a, ha, rfl⟩ := e.surj x hx hL
    by_cases ha0 : a = 0
    · subst ha0
      -- first node of the island: its pivot is its diagonal term
      have bf := (block_factors hz e (A' := gatherIsland _ (conditionAdmittance N A))
        (fun _ _ _ _ => rfl) 0 ha).2
      rw [← bf]
      have hfirst : islandLabels N A ((islandVectors N (islandLabels N A) L).getD 0 0) =
          (islandVectors N (islandLabels N A) L).getD 0 0 := by
        obtain ⟨c1, c2⟩ := c10_label_is_smallest N A _ hx
        have c3 := (labels_connected N A _ _ hx (connected_lt c1 hx)).mpr c1
        obtain ⟨b, hb, hb'⟩ := e.surj _ (connected_lt c1 hx) (c3.symm.trans (e.labEq 0 ha))
        apply le_antisymm (hl.le _)
        rw [← hb']
        rcases Nat.eq_zero_or_pos b with h | h
        · rw [h]
        · exact (e.mono 0 b h hb).le
      exact hd _ hx hfirst
    · exact (hp L hLN (by omega)).2 a (by omega) ha
  rw [decompose_ok_iff]
  exact ⟨⟨fun _ => (hpos 0 (by omega)).ne', fun i _ hi => hpos i hi⟩, hB⟩

/-- **C11 (networks).** For a network of conductance-type links both modes succeed, with the same factors
and hence the same outcome of `Solve` for any sources. -/
theorem c11_network_same_potentials (N : Nat) (links : List (LinkView K)) (h : ∀ l ∈ links, l.Mapped N)
    (hc : ∀ l ∈ links, l.element.Conductive) (w x0 : Vect K) :
    let A := asMat N (buildAdmittance N links)
    ∃ B B', decompose (conditionAdmittance N A) N = .ok B ∧
      decomposeIslands N A (conditionAdmittance N A) = .ok B' ∧ solve B w x0 N = solve B' w x0 N := by
  intro A
  obtain ⟨B, hB, -⟩ := c09_network_decomposes N links h hc
  exact ⟨B, B, hB, c11_off_implies_solve N A B (c08_conductive N links h hc).1 hB, rfl⟩

/-- A network with two islands. -/
example : ∃ B, decomposeIslands 6 sampleIslands (conditionAdmittance 6 sampleIslands) = .ok B ∧
    decompose (conditionAdmittance 6 sampleIslands) 6 = .ok B := by
  have hs : Symm 6 sampleIslands := by
    intro i j hi hj
    interval_cases i <;> interval_cases j <;> rfl
  have ho : OffDiagNonpos 6 sampleIslands := by
    intro i j hi hj hij
    interval_cases i <;> interval_cases j <;> first | omega | (norm_num [sampleIslands, ofRows])
  have hr : ∀ i, i < 6 → 0 ≤ rowSum 6 sampleIslands i := by
    intro i hi
    interval_cases i <;> norm_num [rowSum, sum_range_succ, sampleIslands, ofRows]
  obtain ⟨B, hB, -⟩ := c02_decompose_succeeds (n := 6) (A := conditionAdmittance 6 sampleIslands)
    (by
      intro i j hi hj
      rw [c09_condition_entries, c09_condition_entries]
      by_cases hij : i = j
      · subst hij; rfl
      · rw [if_neg (fun h => hij h.1), if_neg (fun h => hij h.1.symm)]
        exact hs i j hi hj)
    (by
      intro i j hi hj hij
      rw [c09_condition_entries, if_neg (fun h => hij h.1)]
      exact ho i j hi hj hij)
    (fun i hi => c09_rows_positive 6 _ i hi (hr i hi))
  exact ⟨B, c11_off_implies_solve 6 _ B hs hB, hB⟩

/-- **C11 (difference).** A negative admittance of a lone node is reported in mode OFF only. -/
theorem c11_modes_differ :
    let A : Mat ℚ := ofRows [[1, 0], [0, -1]]
    Symm 2 A ∧ (∃ B, decompose (conditionAdmittance 2 A) 2 = .failed 1 B) ∧
    ∃ B, decomposeIslands 2 A (conditionAdmittance 2 A) = .ok B := by
  intro A
  refine ⟨?_, ?_, ?_⟩
  · intro i j hi hj
    interval_cases i <;> interval_cases j <;> rfl
  · have : (match decompose (conditionAdmittance 2 A) 2 with
      | .failed r _ => r
      | _ => 0) = 1 := by decide +kernel
    revert this
    cases decompose (conditionAdmittance 2 A) 2 with
    | ok B => simp
    | failed i B => simp only; rintro rfl; exact ⟨B, rfl⟩
    | divByZero i => simp
  · have : (match decomposeIslands 2 A (conditionAdmittance 2 A) with
      | .ok _ => true
      | _ => false) = true := by decide +kernel
    revert this
    cases decomposeIslands 2 A (conditionAdmittance 2 A) with
    | ok B => exact fun _ => ⟨B, rfl⟩
    | failed i r B => simp
    | divByZero i => simp

end Gunns.Props
