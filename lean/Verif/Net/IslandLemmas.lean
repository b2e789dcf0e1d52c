import Verif.Net.Islands
import Verif.Net.IslandSpec
import Verif.LinAlg.CholeskyFacts
import Mathlib.Data.List.Sort

/-!
# Islands are connected components
-/

set_option linter.unusedSectionVars false

namespace Gunns

open Finset Spec

variable {K : Type _} [Field K] [LinearOrder K]

theorem mergeIslands_eq (N f t : Nat) (lab : Nat → Nat) (x : Nat) :
    mergeIslands N f t lab x = if x < N ∧ lab x = f then t else lab x := by
  unfold mergeIslands
  by_cases h : f = t
  · subst h
    simp only [ne_eq, not_true, if_false]
    split
    · rename_i h; exact h.2
    · rfl
  · rw [if_pos h]
    have : ∀ m, loop (fun node lab => if f = lab node then setLabel lab node t else lab) m lab x =
        if x < m ∧ lab x = f then t else lab x := by
      intro m
      induction m generalizing x with
      | zero => simp
      | succ m ih =>
        have hm := ih m
        rw [if_neg (by omega)] at hm
        rw [loop_succ, hm]
        by_cases hx : x = m
        · subst hx
          by_cases hf : f = lab x
          · rw [if_pos hf, if_pos ⟨by omega, hf.symm⟩]
            simp [setLabel]
          · rw [if_neg hf, if_neg (fun h => hf h.2.symm), hm]
        · have e : (x < m + 1 ∧ lab x = f) ↔ (x < m ∧ lab x = f) := by omega
          simp only [e]
          split
          · rw [setLabel, if_neg hx, ih]
          · rw [ih]
    exact this N

/-- What each visit keeps: labels never exceed the node, and label and node are connected. -/
structure LabelInv (N : Nat) (A : Mat K) (lab : Nat → Nat) : Prop where
  le : ∀ x, lab x ≤ x
  conn : ∀ x, x < N → Connected N A x (lab x)

theorem connected_symm {N : Nat} {A : Mat K} {a b : Nat} (h : Connected N A a b) : Connected N A b a := by
  induction h with
  | refl => exact .refl
  | tail _ hbc ih =>
    refine Relation.ReflTransGen.head ?_ ih
    obtain ⟨h1, h2, h3⟩ := hbc
    exact ⟨h2, h1, h3.symm⟩

theorem connected_trans {N : Nat} {A : Mat K} {a b c : Nat} (h : Connected N A a b)
    (h' : Connected N A b c) : Connected N A a c := Relation.ReflTransGen.trans h h'

theorem connected_lt {N : Nat} {A : Mat K} {a b : Nat} (h : Connected N A a b) (ha : a < N) : b < N := by
  induction h with
  | refl => exact ha
  | tail _ hbc _ => exact hbc.2.1

/-- Merging the label of `r` into a smaller label `t` connected to `r` keeps the invariant. -/
theorem merge_inv {N : Nat} {A : Mat K} {lab : Nat → Nat} (h : LabelInv N A lab) {r t : Nat}
    (hr : r < N) (ht : t ≤ lab r) (hc : Connected N A r t) :
    LabelInv N A (mergeIslands N (lab r) t lab) := by
  refine ⟨?_, ?_⟩
  · intro x
    rw [mergeIslands_eq]
    split
    · rename_i hx
      have := h.le x
      omega
    · exact h.le x
  · intro x hx
    rw [mergeIslands_eq]
    split
    · rename_i hx'
      have h1 := h.conn x hx
      have h2 := h.conn r hr
      rw [hx'.2] at h1
      exact connected_trans h1 (connected_trans (connected_symm h2) hc)
    · exact h.conn x hx

theorem merge_eq_of_eq {N f t : Nat} {lab : Nat → Nat} {x y : Nat} (hx : x < N) (hy : y < N)
    (h : lab x = lab y) : mergeIslands N f t lab x = mergeIslands N f t lab y := by
  rw [mergeIslands_eq, mergeIslands_eq, h]
  simp only [hx, hy, true_and]

theorem visit_inv {N : Nat} {A : Mat K} {lab : Nat → Nat} (h : LabelInv N A lab) {row col : Nat}
    (hrc : row < col) (hc : col < N) :
    LabelInv N A (islandVisit N A row col lab) ∧
    (∀ x y, x < N → y < N → lab x = lab y →
      islandVisit N A row col lab x = islandVisit N A row col lab y) ∧
    (A row col ≠ 0 → islandVisit N A row col lab row = islandVisit N A row col lab col) := by
  unfold islandVisit
  by_cases hA : A row col ≠ 0
  swap
  · simp only [if_neg hA]
    exact ⟨h, fun _ _ _ _ h => h, fun h => absurd h hA⟩
  simp only [if_pos hA]
  set minNum := loop (fun d minNum =>
      if A (row + 1 + d) col ≠ 0 ∧ lab (row + 1 + d) < minNum then lab (row + 1 + d) else minNum)
      (col - (row + 1)) (if lab row < lab col then lab row else lab col) with hmin
  have jrc : Connected N A row col := .single ⟨by omega, hc, .inl ⟨hrc, hA⟩⟩
  -- the minimum: below all labels involved, and connected to `col`
  have hminP : ∀ m, m ≤ col - (row + 1) →
      let mn := loop (fun d minNum =>
        if A (row + 1 + d) col ≠ 0 ∧ lab (row + 1 + d) < minNum then lab (row + 1 + d) else minNum)
        m (if lab row < lab col then lab row else lab col)
      mn ≤ lab row ∧ mn ≤ lab col ∧ (∀ d, d < m → A (row + 1 + d) col ≠ 0 → mn ≤ lab (row + 1 + d)) ∧
      Connected N A col mn := by
    intro m
    induction m with
    | zero =>
      intro _
      simp only [loop_zero]
      split
      · rename_i h'
        exact ⟨le_rfl, h'.le, by omega, connected_trans (connected_symm jrc) (h.conn row (by omega))⟩
      · rename_i h'
        exact ⟨by omega, le_rfl, by omega, h.conn col hc⟩
    | succ m ih =>
      intro hm
      obtain ⟨i1, i2, i3, i4⟩ := ih (by omega)
      simp only [loop_succ]
      generalize loop (fun d minNum =>
        if A (row + 1 + d) col ≠ 0 ∧ lab (row + 1 + d) < minNum then lab (row + 1 + d) else minNum)
        m (if lab row < lab col then lab row else lab col) = mn at i1 i2 i3 i4 ⊢
      split
      · rename_i h'
        refine ⟨by omega, by omega, ?_, ?_⟩
        · intro d hd hAd
          rcases Nat.lt_succ_iff_lt_or_eq.mp hd with h2 | rfl
          · exact h'.2.le.trans (i3 d h2 hAd)
          · exact le_rfl
        · have j2 : Connected N A (row + 1 + m) col := .single ⟨by omega, hc, .inl ⟨by omega, h'.1⟩⟩
          exact connected_trans (connected_symm j2) (h.conn _ (by omega))
      · rename_i h'
        refine ⟨i1, i2, ?_, i4⟩
        intro d hd hAd
        rcases Nat.lt_succ_iff_lt_or_eq.mp hd with h2 | rfl
        · exact i3 d h2 hAd
        · rw [not_and, not_lt] at h'
          exact h' hAd
  obtain ⟨m1, m2, m3, m4⟩ := hminP _ le_rfl
  rw [← hmin] at m1 m2 m3 m4
  clear_value minNum
  -- the merge loop
  have hloop : ∀ m, m ≤ col - (row + 1) →
      let l := loop (fun d lab =>
        if A (row + 1 + d) col ≠ 0 then mergeIslands N (lab (row + 1 + d)) minNum lab else lab) m lab
      LabelInv N A l ∧ (∀ x y, x < N → y < N → lab x = lab y → l x = l y) ∧
      (∀ x, l x = lab x ∨ l x = minNum) := by
    intro m
    induction m with
    | zero => exact fun _ => ⟨h, fun _ _ _ _ h => h, fun _ => .inl rfl⟩
    | succ m ih =>
      intro hm
      obtain ⟨i1, i2, i3⟩ := ih (by omega)
      simp only [loop_succ]
      split
      · rename_i hAm
        refine ⟨merge_inv i1 (by omega) ?_ ?_, ?_, ?_⟩
        · rcases i3 (row + 1 + m) with e | e
          · rw [e]; exact m3 m (by omega) hAm
          · rw [e]
        · exact connected_trans (.single ⟨by omega, hc, .inl ⟨by omega, hAm⟩⟩) m4
        · exact fun x y hx hy hxy => merge_eq_of_eq hx hy (i2 x y hx hy hxy)
        · intro x
          rw [mergeIslands_eq]
          split
          · exact .inr rfl
          · exact i3 x
      · exact ⟨i1, i2, i3⟩
  obtain ⟨l1, l2, l3⟩ := hloop _ le_rfl
  set l := loop (fun d lab =>
    if A (row + 1 + d) col ≠ 0 then mergeIslands N (lab (row + 1 + d)) minNum lab else lab)
    (col - (row + 1)) lab with hl
  clear_value l
  have hlr : minNum ≤ l row := by rcases l3 row with e | e <;> rw [e]; exact m1
  have hlc : minNum ≤ l col := by rcases l3 col with e | e <;> rw [e]; exact m2
  have k1 := merge_inv l1 (r := row) (by omega) hlr (connected_trans jrc m4)
  set l' := mergeIslands N (l row) minNum l with hl'
  have hrow : l' row = minNum := by rw [hl', mergeIslands_eq, if_pos ⟨by omega, rfl⟩]
  have hlc' : minNum ≤ l' col := by
    rw [hl', mergeIslands_eq]
    split
    · exact le_rfl
    · exact hlc
  refine ⟨merge_inv k1 hc hlc' m4, ?_, ?_⟩
  · exact fun x y hx hy hxy => merge_eq_of_eq hx hy (merge_eq_of_eq hx hy (l2 x y hx hy hxy))
  · intro _
    rw [mergeIslands_eq, mergeIslands_eq, if_pos (⟨hc, rfl⟩ : col < N ∧ l' col = l' col), hrow]
    split <;> rfl

theorem labels_inv (N : Nat) (A : Mat K) :
    LabelInv N A (islandLabels N A) ∧
    ∀ a b, a < b → b < N → A a b ≠ 0 → islandLabels N A a = islandLabels N A b := by
  have inner : ∀ row, row < N → ∀ lab, LabelInv N A lab → ∀ m, m ≤ N - (row + 1) →
      let l := loop (fun d lab => islandVisit N A row (row + 1 + d) lab) m lab
      LabelInv N A l ∧ (∀ x y, x < N → y < N → lab x = lab y → l x = l y) ∧
      (∀ b, row < b → b < row + 1 + m → A row b ≠ 0 → l row = l b) := by
    intro row hrow lab hlab m
    induction m with
    | zero => exact fun _ => ⟨hlab, fun _ _ _ _ h => h, fun b h1 h2 => by omega⟩
    | succ m ih =>
      intro hm
      obtain ⟨i1, i2, i3⟩ := ih (by omega)
      obtain ⟨v1, v2, v3⟩ := visit_inv i1 (row := row) (col := row + 1 + m) (by omega) (by omega)
      simp only [loop_succ]
      refine ⟨v1, fun x y hx hy hxy => v2 x y hx hy (i2 x y hx hy hxy), ?_⟩
      intro b h1 h2 h3
      by_cases hb : b = row + 1 + m
      · subst hb; exact v3 h3
      · exact v2 row b hrow (by omega) (i3 b h1 (by omega) h3)
  have outer : ∀ m, m ≤ N - 1 →
      let l := loop (fun row lab =>
        loop (fun d lab => islandVisit N A row (row + 1 + d) lab) (N - (row + 1)) lab) m (fun n => n)
      LabelInv N A l ∧ ∀ a b, a < m → a < b → b < N → A a b ≠ 0 → l a = l b := by
    intro m
    induction m with
    | zero => exact fun _ => ⟨⟨fun _ => le_rfl, fun _ _ => .refl⟩, fun a b h => by omega⟩
    | succ m ih =>
      intro hm
      obtain ⟨i1, i2⟩ := ih (by omega)
      obtain ⟨j1, j2, j3⟩ := inner m (by omega) _ i1 _ le_rfl
      simp only [loop_succ]
      refine ⟨j1, ?_⟩
      intro a b ha hab hb hA
      rcases Nat.lt_succ_iff_lt_or_eq.mp ha with h | rfl
      · exact j2 a b (by omega) hb (i2 a b h hab hb hA)
      · exact j3 b hab (by omega) hA
  obtain ⟨o1, o2⟩ := outer _ le_rfl
  exact ⟨o1, fun a b hab hb hA => o2 a b (by omega) hab hb hA⟩

theorem labels_connected (N : Nat) (A : Mat K) (a b : Nat) (ha : a < N) (hb : b < N) :
    islandLabels N A a = islandLabels N A b ↔ Connected N A a b := by
  obtain ⟨h1, h2⟩ := labels_inv N A
  constructor
  · intro h
    have := h1.conn b hb
    rw [← h] at this
    exact connected_trans (h1.conn a ha) (connected_symm this)
  · intro h
    clear hb
    induction h with
    | refl => rfl
    | tail _ hbc ih =>
      rw [ih]
      obtain ⟨j1, j2, j3 | j3⟩ := hbc
      · exact h2 _ _ j3.1 j2 j3.2
      · exact (h2 _ _ j3.1 j1 j3.2).symm

/-- The island vectors list, in increasing order, the nodes with that label. -/
theorem islandVectors_eq (N : Nat) (lab : Nat → Nat) (i : Nat) :
    islandVectors N lab i = (List.range N).filter (fun n => lab n = i) := by
  unfold islandVectors
  induction N with
  | zero => rfl
  | succ m ih =>
    rw [loop_succ, List.range_succ, List.filter_append]
    rw [ih]
    by_cases h : i = lab m
    · simp [h]
    · simp [h, Ne.symm h]

theorem islandStats_eq (N : Nat) (vecs : Nat → List Nat) :
    (islandStats N vecs).1 = ((List.range N).filter (fun i => vecs i ≠ [])).length ∧
    (∀ i, i < N → (vecs i).length ≤ (islandStats N vecs).2) ∧
    ((islandStats N vecs).2 = 0 ∨ ∃ i, i < N ∧ (vecs i).length = (islandStats N vecs).2) := by
  unfold islandStats
  induction N with
  | zero => simp
  | succ m ih =>
    obtain ⟨h1, h2, h3⟩ := ih
    rw [loop_succ]
    set s := loop (fun island s =>
      let size := (vecs island).length
      (if 0 < size then s.1 + 1 else s.1, if s.2 < size then size else s.2)) m (0, 0) with hs
    refine ⟨?_, ?_, ?_⟩
    · dsimp only
      rw [List.range_succ, List.filter_append, List.length_append, ← h1]
      by_cases hv : vecs m = []
      · simp [hv]
      · rw [if_pos (List.length_pos_iff.mpr hv)]
        simp [hv]
    · intro i hi
      dsimp only
      rcases Nat.lt_succ_iff_lt_or_eq.mp hi with h | rfl
      · have := h2 i h
        split <;> omega
      · split <;> omega
    · dsimp only
      by_cases hlt : s.2 < (vecs m).length
      · rw [if_pos hlt]
        exact .inr ⟨m, by omega, rfl⟩
      · rw [if_neg hlt]
        rcases h3 with h | ⟨i, h, h'⟩
        · exact .inl h
        · exact .inr ⟨i, by omega, h'⟩

end Gunns
