import Verif.Net.IslandLemmas

/-!
# Decomposition by islands is the decomposition of the whole matrix
-/

set_option linter.unusedSectionVars false

namespace Gunns

open Finset Spec

variable {K : Type _} [Field K] [LinearOrder K] [IsStrictOrderedRing K]

theorem keepV_zero_left (b : K) : keepV 0 b = 0 := by
  unfold keepV
  rw [if_neg (fun h => absurd h.1 (not_lt.mpr cholLimit_neg.le))]

theorem keepV_zero_right (a : K) : keepV a 0 = 0 := by
  unfold keepV
  rw [if_neg (fun h => absurd h.2 (not_lt.mpr cholLimit_neg.le))]

theorem flushV_zero : flushV (0 : K) = 0 := by unfold flushV; split <;> rfl

/-- No fill-in across islands. -/
theorem pterm_cross {N : Nat} {C : Mat K} {lab : Nat → Nat}
    (hz : ∀ i j, i < N → j < N → lab i ≠ lab j → C i j = 0) (k i : Nat) (hk : k < i) (hi : i < N)
    (h : lab i ≠ lab k) : pterm C i k = 0 := by
  induction k using Nat.strong_induction_on generalizing i with
  | _ k ih =>
    rw [pterm, schur_offdiag C i k hk, hz i k hi (by omega) h, sum_eq_zero, sub_zero, flushV_zero]
    intro m hm
    rw [mem_range] at hm
    by_cases hm' : lab i = lab m
    · have : pterm C k m = 0 := ih m hm k hm (by omega) (by rw [← hm']; exact h.symm)
      rw [lterm, this, zero_div, keepV_zero_right]
    · rw [ih m hm i (by omega) hi hm', keepV_zero_left]

/-- `φ` enumerates, in increasing order, the nodes of the island `L`. -/
structure Enum (N : Nat) (lab : Nat → Nat) (L n : Nat) (φ : Nat → Nat) : Prop where
  mono : ∀ a b, a < b → b < n → φ a < φ b
  lt : ∀ a, a < n → φ a < N
  labEq : ∀ a, a < n → lab (φ a) = L
  surj : ∀ x, x < N → lab x = L → ∃ a, a < n ∧ φ a = x

theorem Enum.inj {N : Nat} {lab : Nat → Nat} {L n : Nat} {φ : Nat → Nat} (e : Enum N lab L n φ)
    {a b : Nat} (ha : a < n) (hb : b < n) (h : φ a = φ b) : a = b := by
  rcases lt_trichotomy a b with h' | h' | h'
  · have := e.mono a b h' hb; omega
  · exact h'
  · have := e.mono b a h' ha; omega

theorem Enum.lt_of {N : Nat} {lab : Nat → Nat} {L n : Nat} {φ : Nat → Nat} (e : Enum N lab L n φ)
    {a b : Nat} (ha : a < n) (h : φ a < φ b) : a < b := by
  by_contra hc
  rcases Nat.lt_or_eq_of_le (not_lt.mp hc) with h' | h'
  · have := e.mono b a h' ha; omega
  · rw [h'] at h; omega

theorem Enum.sum {N : Nat} {lab : Nat → Nat} {L n : Nat} {φ : Nat → Nat} (e : Enum N lab L n φ)
    (f : Nat → K) (b : Nat) (hb : b < n) (hf : ∀ k, k < φ b → lab k ≠ L → f k = 0) :
    ∑ k ∈ range (φ b), f k = ∑ c ∈ range b, f (φ c) := by
  rw [← sum_image (s := range b) (g := φ) (f := f)]
  · symm
    apply sum_subset
    · intro x hx
      obtain ⟨c, hc, rfl⟩ := mem_image.mp hx
      rw [mem_range] at hc ⊢
      exact e.mono c b hc hb
    · intro x hx hx'
      rw [mem_range] at hx
      apply hf x hx
      intro hl
      obtain ⟨c, hc, rfl⟩ := e.surj x (by have := e.lt b hb; omega) hl
      exact hx' (mem_image.mpr ⟨c, mem_range.mpr (e.lt_of hc hx), rfl⟩)
  · intro c hc d hd h
    have hc' := mem_range.mp hc
    have hd' := mem_range.mp hd
    exact e.inj (by omega) (by omega) h

/-- The factors of an island block are the factors of the whole matrix at its nodes. -/
theorem block_factors {N : Nat} {C A' : Mat K} {lab : Nat → Nat} {L n : Nat} {φ : Nat → Nat}
    (hz : ∀ i j, i < N → j < N → lab i ≠ lab j → C i j = 0) (e : Enum N lab L n φ)
    (hA : ∀ a b, a < n → b < n → A' a b = C (φ a) (φ b)) (b : Nat) (hb : b < n) :
    (∀ a, b < a → a < n → pterm A' a b = pterm C (φ a) (φ b)) ∧ piv A' b = piv C (φ b) := by
  induction b using Nat.strong_induction_on with
  | _ b ih =>
    have hl : ∀ a m, m < b → m < a → a < n → lterm A' a m = lterm C (φ a) (φ m) := by
      intro a m hm hma ha
      rw [lterm, lterm, (ih m hm (by omega)).1 a hma ha, (ih m hm (by omega)).2]
    refine ⟨?_, ?_⟩
    · intro a hba ha
      rw [pterm, pterm, schur_offdiag A' a b hba, schur_offdiag C _ _ (e.mono b a hba ha),
        hA a b ha hb, e.sum _ b hb]
      · congr 2
        apply sum_congr rfl
        intro m hm
        rw [mem_range] at hm
        rw [(ih m hm (by omega)).1 a (by omega) ha, hl b m hm hm hb]
      · intro k hk hne
        rw [pterm_cross hz k (φ a) (hk.trans (e.mono b a hba ha)) (e.lt a ha)
          (by rw [e.labEq a ha]; exact hne.symm), keepV_zero_left]
    · rw [piv, piv, schur_diag, schur_diag, hA b b hb hb, e.sum _ b hb]
      · congr 1
        apply sum_congr rfl
        intro m hm
        rw [mem_range] at hm
        rw [(ih m hm (by omega)).1 b hm hb, hl b m hm hm hb]
      · intro k hk hne
        rw [pterm_cross hz k (φ b) hk (e.lt b hb) (by rw [e.labEq b hb]; exact hne.symm), zero_mul]

/-- The island vectors enumerate the islands. -/
theorem enum_vector (N : Nat) (lab : Nat → Nat) (L : Nat) :
    Enum N lab L (islandVectors N lab L).length (fun a => (islandVectors N lab L).getD a 0) := by
  have hs : (islandVectors N lab L).Pairwise (· < ·) := by
    rw [islandVectors_eq]
    exact List.Pairwise.filter _ List.pairwise_lt_range
  have hget : ∀ a, (ha : a < (islandVectors N lab L).length) →
      (islandVectors N lab L).getD a 0 = (islandVectors N lab L)[a] := by
    intro a ha
    rw [List.getD_eq_getElem?_getD, List.getElem?_eq_getElem ha]
    rfl
  have hmem : ∀ x, x ∈ islandVectors N lab L ↔ x < N ∧ lab x = L := by
    intro x
    rw [islandVectors_eq]
    simp
  refine ⟨?_, ?_, ?_, ?_⟩
  · intro a b hab hb
    rw [hget a (by omega), hget b hb]
    exact List.pairwise_iff_getElem.mp hs a b (by omega) hb hab
  · intro a ha
    rw [hget a ha]
    exact ((hmem _).mp (List.getElem_mem ha)).1
  · intro a ha
    rw [hget a ha]
    exact ((hmem _).mp (List.getElem_mem ha)).2
  · intro x hx hl
    obtain ⟨a, ha, h⟩ := List.getElem_of_mem ((hmem x).mpr ⟨hx, hl⟩)
    exact ⟨a, ha, by rw [hget a ha, h]⟩

theorem scatter_spec {N : Nat} {lab : Nat → Nat} {L : Nat} {v : List Nat}
    (e : Enum N lab L v.length (fun a => v.getD a 0)) (Ai A : Mat K) :
    (∀ a b, a < v.length → b < v.length →
      scatterIsland v Ai A (v.getD a 0) (v.getD b 0) = Ai a b) ∧
    (∀ x y, ¬ (x < N ∧ lab x = L ∧ y < N ∧ lab y = L) → scatterIsland v Ai A x y = A x y) := by
  have inner : ∀ i, i < v.length → ∀ (A : Mat K), ∀ m, m ≤ v.length →
      let R := loop (fun j A => A.set (v.getD i 0) (v.getD j 0) (Ai i j)) m A
      (∀ b, b < m → R (v.getD i 0) (v.getD b 0) = Ai i b) ∧
      (∀ x y, (x ≠ v.getD i 0 ∨ ∀ b, b < m → y ≠ v.getD b 0) → R x y = A x y) := by
    intro i hi A m
    induction m with
    | zero => exact fun _ => ⟨fun b hb => by omega, fun _ _ _ => rfl⟩
    | succ m ih =>
      intro hm
      obtain ⟨h1, h2⟩ := ih (by omega)
      simp only [loop_succ]
      refine ⟨?_, ?_⟩
      · intro b hb
        rcases Nat.lt_succ_iff_lt_or_eq.mp hb with h | rfl
        · rw [Mat.set_ne, h1 b h]
          rintro ⟨-, h'⟩
          have := e.inj (a := b) (b := m) (by omega) (by omega) h'
          omega
        · rw [Mat.set_same]
      · intro x y hxy
        rw [Mat.set_ne, h2 x y]
        · rcases hxy with h | h
          · exact .inl h
          · exact .inr (fun b hb => h b (by omega))
        · rintro ⟨h3, h4⟩
          rcases hxy with h | h
          · exact h h3
          · exact h m (by omega) h4
  have outer : ∀ m, m ≤ v.length →
      let R := loop (fun i A => loop (fun j A => A.set (v.getD i 0) (v.getD j 0) (Ai i j)) v.length A) m A
      (∀ a b, a < m → b < v.length → R (v.getD a 0) (v.getD b 0) = Ai a b) ∧
      (∀ x y, ¬ (x < N ∧ lab x = L ∧ y < N ∧ lab y = L) → R x y = A x y) := by
    intro m
    induction m with
    | zero => exact fun _ => ⟨fun a b ha => by omega, fun _ _ _ => rfl⟩
    | succ m ih =>
      intro hm
      obtain ⟨h1, h2⟩ := ih (by omega)
      obtain ⟨j1, j2⟩ := inner m (by omega)
        (loop (fun i A => loop (fun j A => A.set (v.getD i 0) (v.getD j 0) (Ai i j)) v.length A) m A)
        v.length le_rfl
      simp only [loop_succ]
      refine ⟨?_, ?_⟩
      · intro a b ha hb
        rcases Nat.lt_succ_iff_lt_or_eq.mp ha with h | rfl
        · rw [j2, h1 a b h hb]
          left
          intro h'
          have := e.inj (a := a) (b := m) (by omega) (by omega) h'
          omega
        · exact j1 b hb
      · intro x y hxy
        rw [j2, h2 x y hxy]
        by_contra hc
        rw [not_or] at hc
        obtain ⟨hc1, hc2⟩ := hc
        push Not at hc1 hc2
        obtain ⟨b, hb, hb'⟩ := hc2
        apply hxy
        have m1 := e.lt m (by omega)
        have m2 := e.labEq m (by omega)
        have b1 := e.lt b hb
        have b2 := e.labEq b hb
        rw [← hc1] at m1 m2
        rw [← hb'] at b1 b2
        exact ⟨m1, m2, b1, b2⟩
  exact outer v.length le_rfl

/-- Stored factors of the whole matrix. -/
def factorsOf (C : Mat K) : Mat K := fun i j =>
  if i = j then piv C i else if j < i then lterm C i j else lterm C j i

/-- Pivots checked when the island of length `n` enumerated by `φ` is decomposed. -/
def PivotsOk (C : Mat K) (n : Nat) (φ : Nat → Nat) : Prop :=
  2 ≤ n → piv C (φ 0) ≠ 0 ∧ ∀ a, 1 ≤ a → a < n → 0 < piv C (φ a)

/-- Effect of one island on the matrix. -/
theorem decomposeIsland_spec {N : Nat} {C B : Mat K} {lab : Nat → Nat} (L : Nat)
    (hz : ∀ i j, i < N → j < N → lab i ≠ lab j → C i j = 0)
    (hB : ∀ i j, i < N → j < N → lab i = L → lab j = L → B i j = C i j) :
    let v := islandVectors N lab L
    (∀ R, decomposeIsland (islandVectors N lab) L B = .ok R →
      PivotsOk C v.length (fun a => v.getD a 0) ∧
      (∀ i j, i < N → j < N → lab i = L → lab j = L → R i j = factorsOf C i j) ∧
      (∀ i j, ¬ (i < N ∧ lab i = L ∧ j < N ∧ lab j = L) → R i j = B i j)) ∧
    (PivotsOk C v.length (fun a => v.getD a 0) →
      ∃ R, decomposeIsland (islandVectors N lab) L B = .ok R) := by
  have e := enum_vector N lab L
  generalize hv : islandVectors N lab L = v at e
  dsimp only
  have hA : ∀ a b, a < v.length → b < v.length →
      gatherIsland v B a b = C (v.getD a 0) (v.getD b 0) := by
    intro a b ha hb
    exact hB _ _ (e.lt a ha) (e.lt b hb) (e.labEq a ha) (e.labEq b hb)
  have bf := block_factors hz e hA
  unfold decomposeIsland
  simp only [hv]
  by_cases h0 : 0 < v.length
  swap
  · simp only [if_neg h0]
    refine ⟨?_, fun _ => ⟨B, rfl⟩⟩
    intro R hR
    cases hR
    refine ⟨fun h => by omega, ?_, fun _ _ _ => rfl⟩
    intro i j hi _ hli _
    obtain ⟨a, ha, -⟩ := e.surj i hi hli
    omega
  simp only [if_pos h0]
  by_cases h1 : 1 < v.length
  swap
  · simp only [if_neg h1]
    refine ⟨?_, fun _ => ⟨_, rfl⟩⟩
    intro R hR
    cases hR
    obtain ⟨s1, s2⟩ := scatter_spec e (gatherIsland v B) B
    refine ⟨fun h => by omega, ?_, s2⟩
    intro i j hi hj hli hlj
    obtain ⟨a, ha, rfl⟩ := e.surj i hi hli
    obtain ⟨b, hb, rfl⟩ := e.surj j hj hlj
    obtain rfl : a = 0 := by omega
    obtain rfl : b = 0 := by omega
    rw [s1 0 0 h0 h0, hA 0 0 h0 h0, factorsOf, if_pos rfl, ← (bf 0 h0).2, piv, schur, hA 0 0 h0 h0]
  simp only [if_pos h1]
  obtain ⟨d1, d2, d3⟩ := decomposeTo_spec (gatherIsland v B) (v.length - 1)
  refine ⟨?_, ?_⟩
  · intro R hR
    cases hd : decompose (gatherIsland v B) v.length with
    | ok Ai =>
      rw [hd] at hR
      cases hR
      obtain ⟨⟨f1, f2, f3, -, -⟩, p1, p2⟩ := d1 Ai hd
      obtain ⟨s1, s2⟩ := scatter_spec e Ai B
      refine ⟨fun _ => ⟨?_, ?_⟩, ?_, s2⟩
      · rw [← (bf 0 h0).2]; exact p2 (by omega)
      · intro a ha1 ha2
        rw [← (bf a ha2).2]; exact p1 a ha1 (by omega)
      · intro i j hi hj hli hlj
        obtain ⟨a, ha, rfl⟩ := e.surj i hi hli
        obtain ⟨b, hb, rfl⟩ := e.surj j hj hlj
        rw [s1 a b ha hb, factorsOf]
        have hlt : ∀ a b, a < v.length → b < a →
            lterm (gatherIsland v B) a b = lterm C (v.getD a 0) (v.getD b 0) := by
          intro a b ha hba
          rw [lterm, lterm, (bf b (by omega)).1 a hba ha, (bf b (by omega)).2]
        rcases lt_trichotomy a b with h | h | h
        · have hm := e.mono a b h hb
          rw [if_neg (by omega), if_neg (by omega), f3 b a (by omega) h, hlt b a hb h]
        · subst h
          rw [if_pos rfl, f1 a (by omega), (bf a ha).2]
        · have hm := e.mono b a h ha
          rw [if_neg (by omega), if_pos (by omega), f2 a b (by omega) h, hlt a b ha h]
    | failed r Ai => rw [hd] at hR; cases hR
    | divByZero r => rw [hd] at hR; cases hR
  · intro hp
    obtain ⟨hp0, hp1⟩ := hp (by omega)
    cases hd : decompose (gatherIsland v B) v.length with
    | ok Ai => exact ⟨_, rfl⟩
    | failed r Ai =>
      obtain ⟨q1, q2, q3, -⟩ := d2 r Ai hd
      rw [(bf r (by omega)).2] at q3
      exact absurd (hp1 r q1 (by omega)) (not_lt.mpr q3)
    | divByZero r =>
      obtain ⟨q1, q2, q3⟩ := d3 r hd
      rw [(bf 0 h0).2] at q3
      exact absurd q3 hp0

theorem decomposeIslandsTo_spec {N : Nat} {C : Mat K} {lab : Nat → Nat}
    (hz : ∀ i j, i < N → j < N → lab i ≠ lab j → C i j = 0) (m : Nat) :
    (∀ R, decomposeIslandsTo (islandVectors N lab) C m = .ok R →
      (∀ L, L < m → PivotsOk C (islandVectors N lab L).length
        (fun a => (islandVectors N lab L).getD a 0)) ∧
      (∀ i j, i < N → j < N → lab i = lab j → lab i < m → R i j = factorsOf C i j) ∧
      (∀ i j, ¬ (i < N ∧ j < N ∧ lab i = lab j ∧ lab i < m) → R i j = C i j)) ∧
    ((∀ L, L < m → PivotsOk C (islandVectors N lab L).length
        (fun a => (islandVectors N lab L).getD a 0)) →
      ∃ R, decomposeIslandsTo (islandVectors N lab) C m = .ok R) := by
  induction m with
  | zero =>
    refine ⟨?_, fun _ => ⟨C, rfl⟩⟩
    intro R hR
    cases hR
    exact ⟨fun L hL => by omega, fun i j _ _ _ h => by omega, fun _ _ _ => rfl⟩
  | succ m ih =>
    obtain ⟨i1, i2⟩ := ih
    have key : ∀ B, decomposeIslandsTo (islandVectors N lab) C m = .ok B → _ :=
      fun B hB => decomposeIsland_spec (B := B) m hz (fun i j hi hj hli hlj =>
        (i1 B hB).2.2 i j (by rintro ⟨-, -, -, h⟩; omega))
    refine ⟨?_, ?_⟩
    · intro R hR
      cases hd : decomposeIslandsTo (islandVectors N lab) C m with
      | ok B =>
        rw [decomposeIslandsTo, hd] at hR
        obtain ⟨k1, k2, k3⟩ := (key B hd).1 R hR
        obtain ⟨j1, j2, j3⟩ := i1 B hd
        refine ⟨?_, ?_, ?_⟩
        · intro L hL
          rcases Nat.lt_succ_iff_lt_or_eq.mp hL with h | rfl
          · exact j1 L h
          · exact k1
        · intro i j hi hj hl hm
          rcases Nat.lt_succ_iff_lt_or_eq.mp hm with h | h
          · rw [k3 i j (by rintro ⟨-, h', -⟩; omega), j2 i j hi hj hl h]
          · exact k2 i j hi hj h (by omega)
        · intro i j h
          rw [k3 i j (by rintro ⟨h1, h2, h3, h4⟩; apply h; exact ⟨h1, h3, by omega, by omega⟩),
            j3 i j (by rintro ⟨h1, h2, h3, h4⟩; apply h; exact ⟨h1, h2, h3, by omega⟩)]
      | failed a b c => rw [decomposeIslandsTo, hd] at hR; cases hR
      | divByZero a => rw [decomposeIslandsTo, hd] at hR; cases hR
    · intro hp
      obtain ⟨B, hB⟩ := i2 (fun L hL => hp L (by omega))
      obtain ⟨R, hR⟩ := (key B hB).2 (hp m (by omega))
      exact ⟨R, by rw [decomposeIslandsTo, hB]; exact hR⟩

theorem factorsOf_cross {N : Nat} {C : Mat K} {lab : Nat → Nat}
    (hz : ∀ i j, i < N → j < N → lab i ≠ lab j → C i j = 0) (i j : Nat) (hi : i < N) (hj : j < N)
    (h : lab i ≠ lab j) : factorsOf C i j = 0 := by
  unfold factorsOf
  rw [if_neg (by rintro rfl; exact h rfl)]
  split
  · rename_i hji
    rw [lterm, pterm_cross hz j i hji hi h, zero_div]
  · rename_i hji
    have : i ≠ j := by rintro rfl; exact h rfl
    rw [lterm, pterm_cross hz i j (by omega) hj h.symm, zero_div]

/-- A normal return of the whole decomposition in terms of the factors. -/
theorem decompose_ok_iff (C : Mat K) (N : Nat) (B : Mat K) :
    decompose C N = .ok B ↔
      ((2 ≤ N → piv C 0 ≠ 0) ∧ (∀ i, 1 ≤ i → i < N → 0 < piv C i)) ∧
      ∀ i j, B i j = if i < N ∧ j < N then factorsOf C i j else C i j := by
  obtain ⟨s1, s2, s3⟩ := decomposeTo_spec C (N - 1)
  have fwd : ∀ B, decompose C N = .ok B → ((2 ≤ N → piv C 0 ≠ 0) ∧ (∀ i, 1 ≤ i → i < N → 0 < piv C i)) ∧
      ∀ i j, B i j = if i < N ∧ j < N then factorsOf C i j else C i j := by
    intro B h
    obtain ⟨⟨f1, f2, f3, f4, f5⟩, p1, p2⟩ := s1 B h
    refine ⟨⟨fun h => p2 (by omega), fun i h1 h2 => p1 i h1 (by omega)⟩, ?_⟩
    intro i j
    by_cases hN : N = 0
    · subst hN
      have : B = C := by
        unfold decompose at h
        exact (DecompResult.ok.inj h).symm
      rw [this, if_neg (by omega)]
    split
    · rename_i h'
      unfold factorsOf
      split
      · rename_i hij; subst hij; exact f1 i (by omega)
      · split
        · exact f2 i j (by omega) (by assumption)
        · exact f3 j i (by omega) (by omega)
    · by_cases hi : N - 1 < i
      · exact f4 i j hi
      · exact f5 i j (by omega)
  constructor
  · exact fwd B
  · rintro ⟨⟨h1, h2⟩, h3⟩
    cases hd : decompose C N with
    | ok B' =>
      obtain ⟨-, h4⟩ := fwd B' hd
      have : B' = B := by
        funext i j
        rw [h3, h4]
      rw [this]
    | failed r Ai =>
      obtain ⟨q1, q2, q3, -⟩ := s2 r Ai hd
      exact absurd (h2 r q1 (by omega)) (not_lt.mpr q3)
    | divByZero r =>
      obtain ⟨q1, q2, q3⟩ := s3 r hd
      exact absurd q3 (h1 (by omega))

/-- A normal return of the decomposition by islands in terms of the factors. -/
theorem decomposeIslandsTo_ok_iff {N : Nat} {C : Mat K} {lab : Nat → Nat}
    (hz : ∀ i j, i < N → j < N → lab i ≠ lab j → C i j = 0) (hlab : ∀ i, lab i ≤ i) (B : Mat K) :
    decomposeIslandsTo (islandVectors N lab) C N = .ok B ↔
      (∀ L, L < N → PivotsOk C (islandVectors N lab L).length
        (fun a => (islandVectors N lab L).getD a 0)) ∧
      ∀ i j, B i j = if i < N ∧ j < N then factorsOf C i j else C i j := by
  obtain ⟨s1, s2⟩ := decomposeIslandsTo_spec hz N
  have fwd : ∀ B, decomposeIslandsTo (islandVectors N lab) C N = .ok B →
      ∀ i j, B i j = if i < N ∧ j < N then factorsOf C i j else C i j := by
    intro B h i j
    obtain ⟨-, h2, h3⟩ := s1 B h
    split
    · rename_i hij
      by_cases hl : lab i = lab j
      · exact h2 i j hij.1 hij.2 hl (lt_of_le_of_lt (hlab i) hij.1)
      · rw [h3 i j (fun h => hl h.2.2.1), factorsOf_cross hz i j hij.1 hij.2 hl,
          hz i j hij.1 hij.2 hl]
    · rename_i hij
      exact h3 i j (fun h => hij ⟨h.1, h.2.1⟩)
  constructor
  · exact fun h => ⟨(s1 B h).1, fwd B h⟩
  · rintro ⟨h1, h2⟩
    obtain ⟨R, hR⟩ := s2 h1
    have : R = B := by
      funext i j
      rw [fwd R hR, h2]
    rw [← this]; exact hR

end Gunns
