import Verif.LinAlg.SolveLemmas
import Mathlib.LinearAlgebra.Matrix.NonsingularInverse

/-!
# Loop characterisation of `Invert`
-/

set_option linter.unusedSectionVars false

namespace Gunns

open Finset Spec

variable {K : Type _} [Field K] [LinearOrder K]

theorem invLower_inner_loop (i j m : Nat) (hm : j + 1 + m ≤ i) (A : Mat K) :
    (loop (invLowerInner i j) m A i j =
      A i j - ∑ d ∈ range m, A i (j + 1 + d) * A (j + 1 + d) j) ∧
    (∀ a b, ¬ (a = i ∧ b = j) → loop (invLowerInner i j) m A a b = A a b) := by
  induction m with
  | zero => simp
  | succ m ih =>
    obtain ⟨h1, h2⟩ := ih (by omega)
    rw [loop_succ]
    refine ⟨?_, ?_⟩
    · rw [invLowerInner, Mat.set_same, h1, h2 _ _ (by omega), h2 _ _ (by omega), sum_range_succ]
      ring
    · intro a b hab
      rw [invLowerInner, Mat.set_ne _ _ _ _ _ _ hab, h2 a b hab]

/-- Row `i` of `InvertUnitLowerTriangular`. -/
theorem invLower_row (i m : Nat) (hm : m ≤ i) (A : Mat K) :
    let C := loop (fun j A => loop (invLowerInner i j) (i - (j + 1)) (A.set i j (-(A i j)))) m A
    (∀ a b, ¬ (a = i ∧ b < m) → C a b = A a b) ∧
    (∀ j, j < m → C i j = -(A i j) - ∑ d ∈ range (i - (j + 1)), A i (j + 1 + d) * A (j + 1 + d) j) := by
  induction m with
  | zero => simp
  | succ m ih =>
    obtain ⟨h1, h2⟩ := ih (by omega)
    set C := loop (fun j A => loop (invLowerInner i j) (i - (j + 1)) (A.set i j (-(A i j)))) m A with hC
    intro D
    have hD : D = loop (invLowerInner i m) (i - (m + 1)) (C.set i m (-(C i m))) := rfl
    obtain ⟨g1, g2⟩ := invLower_inner_loop i m (i - (m + 1)) (by omega)
      (C.set i m (-(C i m)))
    rw [← hD] at g1 g2
    have hoth : ∀ a b, ¬ (a = i ∧ b = m) → D a b = C a b := by
      intro a b hab
      rw [g2 a b hab, Mat.set_ne _ _ _ _ _ _ hab]
    refine ⟨?_, ?_⟩
    · intro a b hab
      rw [hoth a b (by omega), h1 a b (by omega)]
    · intro j hj
      rcases Nat.lt_succ_iff_lt_or_eq.mp hj with hlt | rfl
      · rw [hoth i j (by omega), h2 j hlt]
      · rw [g1, Mat.set_same, h1 i j (by omega)]
        congr 1
        apply sum_congr rfl
        intro d hd
        rw [mem_range] at hd
        rw [Mat.set_ne _ _ _ _ _ _ (by omega), Mat.set_ne _ _ _ _ _ _ (by omega),
          h1 _ _ (by omega), h1 _ _ (by omega)]

theorem invertUnitLower_spec (A : Mat K) (n : Nat) :
    (∀ i j, j < i → i < n → invertUnitLower A n i j =
      -(A i j) - ∑ d ∈ range (i - (j + 1)), A i (j + 1 + d) * invertUnitLower A n (j + 1 + d) j) ∧
    (∀ i j, ¬ (j < i ∧ i < n) → invertUnitLower A n i j = A i j) := by
  have main : ∀ m, m ≤ n - 1 →
      let C := loop (fun ii A => loop (fun j A => loop (invLowerInner (ii + 1) j) (ii + 1 - (j + 1))
        (A.set (ii + 1) j (-(A (ii + 1) j)))) (ii + 1) A) m A
      (∀ i j, j < i → i ≤ m → C i j =
        -(A i j) - ∑ d ∈ range (i - (j + 1)), A i (j + 1 + d) * C (j + 1 + d) j) ∧
      (∀ i j, ¬ (j < i ∧ i ≤ m) → C i j = A i j) := by
    intro m
    induction m with
    | zero =>
      intro _
      exact ⟨fun i j h1 h2 => by omega, fun _ _ _ => rfl⟩
    | succ m ih =>
      intro hm
      obtain ⟨h1, h2⟩ := ih (by omega)
      set C := loop (fun ii A => loop (fun j A => loop (invLowerInner (ii + 1) j) (ii + 1 - (j + 1))
        (A.set (ii + 1) j (-(A (ii + 1) j)))) (ii + 1) A) m A with hC
      intro D
      obtain ⟨g1, g2⟩ := invLower_row (m + 1) (m + 1) le_rfl C
      have hoth : ∀ a b, ¬ (a = m + 1 ∧ b < m + 1) → D a b = C a b := g1
      have hnew : ∀ j, j < m + 1 → D (m + 1) j = _ := g2
      refine ⟨?_, ?_⟩
      · intro i j hj hi
        rcases Nat.lt_or_eq_of_le hi with hlt | rfl
        · rw [hoth i j (by omega), h1 i j hj (by omega)]
          congr 1
          apply sum_congr rfl
          intro d hd
          rw [mem_range] at hd
          rw [hoth _ _ (by omega)]
        · rw [hnew j hj, h2 (m + 1) j (by omega)]
          congr 1
          apply sum_congr rfl
          intro d hd
          rw [mem_range] at hd
          rw [hoth _ _ (by omega), h2 (m + 1) _ (by omega)]
      · intro i j hij
        rw [hoth i j (by omega), h2 i j (by omega)]
  obtain ⟨h1, h2⟩ := main (n - 1) le_rfl
  exact ⟨fun i j hj hi => h1 i j hj (by omega), fun i j h => h2 i j (by omega)⟩

theorem invAccum_loop (i j m : Nat) (A : Mat K) :
    (loop (invAccum i j) m A i j = A i j +
      ∑ d ∈ range m, A (i + 1 + d) i * A (i + 1 + d) j / A (i + 1 + d) (i + 1 + d)) ∧
    (∀ a b, ¬ (a = i ∧ b = j) → loop (invAccum i j) m A a b = A a b) := by
  induction m with
  | zero => simp
  | succ m ih =>
    obtain ⟨h1, h2⟩ := ih
    rw [loop_succ]
    refine ⟨?_, ?_⟩
    · rw [invAccum, Mat.set_same, h1, h2 _ _ (by omega), h2 _ _ (by omega), h2 _ _ (by omega),
        sum_range_succ]
      ring
    · intro a b hab
      rw [invAccum, Mat.set_ne _ _ _ _ _ _ hab, h2 a b hab]

theorem invBody_spec (n i j : Nat) (hij : j ≤ i) (A : Mat K) :
    (invBody n i j A i j = (if j = i then 1 else A i j) / A i i +
      ∑ d ∈ range (n - (i + 1)), A (i + 1 + d) i * A (i + 1 + d) j / A (i + 1 + d) (i + 1 + d)) ∧
    (invBody n i j A j i = invBody n i j A i j) ∧
    (∀ a b, ¬ (a = i ∧ b = j) → ¬ (a = j ∧ b = i) → invBody n i j A a b = A a b) := by
  unfold invBody
  set A1 := if j = i then A.set i j (1 / A i i) else A.set i j (A i j / A i i) with hA1
  have e1 : A1 i j = (if j = i then 1 else A i j) / A i i := by
    rw [hA1]; split <;> simp
  have e2 : ∀ a b, ¬ (a = i ∧ b = j) → A1 a b = A a b := by
    intro a b hab
    rw [hA1]; split <;> rw [Mat.set_ne _ _ _ _ _ _ hab]
  obtain ⟨g1, g2⟩ := invAccum_loop i j (n - (i + 1)) A1
  set A2 := loop (invAccum i j) (n - (i + 1)) A1 with hA2
  have e3 : A2 i j = (if j = i then 1 else A i j) / A i i +
      ∑ d ∈ range (n - (i + 1)), A (i + 1 + d) i * A (i + 1 + d) j / A (i + 1 + d) (i + 1 + d) := by
    rw [g1, e1]
    congr 1
    apply sum_congr rfl
    intro d _
    rw [e2 _ _ (by omega), e2 _ _ (by omega), e2 _ _ (by omega)]
  have e4 : (A2.set j i (A2 i j)) i j = A2 i j := by
    by_cases h : i = j
    · subst h; simp
    · rw [Mat.set_ne _ _ _ _ _ _ (by omega)]
  refine ⟨?_, ?_, ?_⟩
  · rw [e4, e3]
  · rw [e4, Mat.set_same]
  · intro a b h1 h2
    rw [Mat.set_ne _ _ _ _ _ _ h2, g2 a b h1, e2 a b h1]

/-- Value of term `(i,j)`, `j ≤ i`, of the inverse in terms of the inverted unit lower factor `M` and
the diagonal `D`. -/
def invTerm (M : Mat K) (n i j : Nat) : K :=
  (if j = i then 1 else M i j) / M i i +
    ∑ d ∈ range (n - (i + 1)), M (i + 1 + d) i * M (i + 1 + d) j / M (i + 1 + d) (i + 1 + d)

theorem invert_col (n j : Nat) (M : Mat K) (m : Nat) (hm : m ≤ n - j) :
    let C := loop (fun d A => invBody n (j + d) j A) m M
    (∀ i, j ≤ i → i < j + m → C i j = invTerm M n i j ∧ C j i = invTerm M n i j) ∧
    (∀ a b, ¬ (b = j ∧ j ≤ a ∧ a < j + m) → ¬ (a = j ∧ j ≤ b ∧ b < j + m) → C a b = M a b) := by
  induction m with
  | zero =>
    exact ⟨fun i h1 h2 => by omega, fun _ _ _ _ => rfl⟩
  | succ m ih =>
    obtain ⟨h1, h2⟩ := ih (by omega)
    set C := loop (fun d A => invBody n (j + d) j A) m M with hC
    intro D
    obtain ⟨g1, g2, g3⟩ := invBody_spec n (j + m) j (by omega) C
    have g1' : D (j + m) j = _ := g1
    have g2' : D j (j + m) = D (j + m) j := g2
    have g3' : ∀ a b, ¬ (a = j + m ∧ b = j) → ¬ (a = j ∧ b = j + m) → D a b = C a b := g3
    have hval : D (j + m) j = invTerm M n (j + m) j := by
      rw [g1', invTerm]
      congr 1
      · rw [h2 (j + m) (j + m) (by omega) (by omega)]
        split
        · rfl
        · rw [h2 (j + m) j (by omega) (by omega)]
      · apply sum_congr rfl
        intro d _
        rw [h2 _ _ (by omega) (by omega), h2 _ _ (by omega) (by omega), h2 _ _ (by omega) (by omega)]
    refine ⟨?_, ?_⟩
    · intro i hi1 hi2
      rcases Nat.lt_or_eq_of_le (show i ≤ j + m by omega) with hlt | rfl
      · rw [g3' i j (by omega) (by omega), g3' j i (by omega) (by omega)]
        exact h1 i hi1 hlt
      · rw [g2', hval]; exact ⟨rfl, rfl⟩
    · intro a b ha hb
      rw [g3' a b (by omega) (by omega), h2 a b (by omega) (by omega)]

theorem invert_spec (A : Mat K) (n : Nat) (i j : Nat) (hij : j ≤ i) (hi : i < n) :
    invert A n i j = invTerm (invertUnitLower A n) n i j ∧
    invert A n j i = invTerm (invertUnitLower A n) n i j := by
  set M := invertUnitLower A n with hM
  have main : ∀ m, m ≤ n →
      let C := loop (fun j A => loop (fun d A => invBody n (j + d) j A) (n - j) A) m M
      (∀ i j, j < m → j ≤ i → i < n → C i j = invTerm M n i j ∧ C j i = invTerm M n i j) ∧
      (∀ a b, m ≤ a → m ≤ b → C a b = M a b) := by
    intro m
    induction m with
    | zero => intro _; exact ⟨fun i j h => by omega, fun _ _ _ _ => rfl⟩
    | succ m ih =>
      intro hm
      obtain ⟨h1, h2⟩ := ih (by omega)
      set C := loop (fun j A => loop (fun d A => invBody n (j + d) j A) (n - j) A) m M with hC
      intro D
      obtain ⟨g1, g2⟩ := invert_col n m C (n - m) le_rfl
      have g1' : ∀ i, m ≤ i → i < m + (n - m) → D i m = invTerm C n i m ∧ D m i = invTerm C n i m := g1
      have g2' : ∀ a b, ¬ (b = m ∧ m ≤ a ∧ a < m + (n - m)) → ¬ (a = m ∧ m ≤ b ∧ b < m + (n - m)) →
        D a b = C a b := g2
      refine ⟨?_, ?_⟩
      · intro i j hj hji hin
        rcases Nat.lt_succ_iff_lt_or_eq.mp hj with hlt | rfl
        · rw [g2' i j (by omega) (by omega), g2' j i (by omega) (by omega)]
          exact h1 i j hlt hji hin
        · have : invTerm C n i j = invTerm M n i j := by
            unfold invTerm
            congr 1
            · rw [h2 i i (by omega) (by omega), h2 i j (by omega) (by omega)]
            · apply sum_congr rfl
              intro d _
              rw [h2 _ _ (by omega) (by omega), h2 _ _ (by omega) (by omega),
                h2 _ _ (by omega) (by omega)]
          rw [← this]
          exact g1' i hji (by omega)
      · intro a b ha hb
        rw [g2' a b (by omega) (by omega), h2 a b (by omega) (by omega)]
  obtain ⟨h1, -⟩ := main n le_rfl
  exact h1 i j (by omega) hij hi

/-! ### From loops to matrices -/

/-- `Fin n` matrix of a stored matrix. -/
def toM (n : Nat) (A : Mat K) : Matrix (Fin n) (Fin n) K := fun i j => A i j

theorem toM_mul (n : Nat) (A B : Mat K) (i j : Fin n) :
    (toM n A * toM n B) i j = ∑ k ∈ range n, A i k * B k j := by
  rw [Matrix.mul_apply, Finset.sum_range]
  rfl

/-- `L · L⁻¹ = 1` for the loop computing the inverse of the unit lower factor. -/
theorem lower_mul_inv (A : Mat K) (n : Nat) :
    toM n (unitLower A) * toM n (unitLower (invertUnitLower A n)) = 1 := by
  obtain ⟨h1, -⟩ := invertUnitLower_spec A n
  ext i j
  rw [toM_mul, Matrix.one_apply]
  obtain ⟨i, hi⟩ := i
  obtain ⟨j, hj⟩ := j
  simp only [Fin.mk.injEq]
  have e := mulVec_unitLower n A (fun k => unitLower (invertUnitLower A n) k j) i hi
  unfold mulVec at e
  rw [e]
  rcases lt_trichotomy i j with h | h | h
  · rw [if_neg (by omega)]
    have : ∀ k, k ≤ i → unitLower (invertUnitLower A n) k j = 0 := by
      intro k hk; unfold unitLower; rw [if_neg (by omega), if_neg (by omega)]
    rw [this i le_rfl, sum_eq_zero, add_zero]
    intro k hk
    rw [mem_range] at hk
    rw [this k (by omega), zero_mul]
  · subst h
    rw [if_pos rfl]
    have : ∀ k, k < i → unitLower (invertUnitLower A n) k i = 0 := by
      intro k hk; unfold unitLower; rw [if_neg (by omega), if_neg (by omega)]
    rw [sum_eq_zero, add_zero]
    · simp [unitLower]
    · intro k hk
      rw [mem_range] at hk
      rw [this k hk, zero_mul]
  · rw [if_neg (by omega)]
    have e1 : unitLower (invertUnitLower A n) i j = invertUnitLower A n i j := by
      unfold unitLower; rw [if_pos h]
    rw [e1, h1 i j h hi]
    obtain ⟨m, rfl⟩ : ∃ m, i = (j + 1) + m := ⟨i - (j + 1), by omega⟩
    have e0 : ∑ x ∈ range j, unitLower (invertUnitLower A n) x j * A (j + 1 + m) x = 0 := by
      apply sum_eq_zero
      intro k hk
      rw [mem_range] at hk
      unfold unitLower
      rw [if_neg (by omega), if_neg (by omega), zero_mul]
    rw [sum_range_add, sum_range_succ, e0]
    · have e2 : unitLower (invertUnitLower A n) j j = 1 := by simp [unitLower]
      rw [e2, show j + 1 + m - (j + 1) = m by omega]
      have e3 : ∑ d ∈ range m, unitLower (invertUnitLower A n) (j + 1 + d) j * A (j + 1 + m) (j + 1 + d) =
          ∑ d ∈ range m, A (j + 1 + m) (j + 1 + d) * invertUnitLower A n (j + 1 + d) j := by
        apply sum_congr rfl
        intro d _
        unfold unitLower
        rw [if_pos (by omega), mul_comm]
      rw [e3]; ring

theorem invTerm_eq (A : Mat K) (n i j : Nat) (hij : j ≤ i) (hi : i < n) :
    invTerm (invertUnitLower A n) n i j =
      ∑ k ∈ range n, unitLower (invertUnitLower A n) k i * (1 / A k k) *
        unitLower (invertUnitLower A n) k j := by
  set M := invertUnitLower A n with hM
  have hd : ∀ k, M k k = A k k := fun k => (invertUnitLower_spec A n).2 k k (by omega)
  obtain ⟨m, rfl⟩ : ∃ m, n = (i + 1) + m := ⟨n - (i + 1), by omega⟩
  rw [sum_range_add, sum_range_succ, sum_eq_zero, invTerm, zero_add,
    show i + 1 + m - (i + 1) = m by omega]
  · congr 1
    · rw [hd]
      by_cases h : j = i
      · subst h; simp [unitLower]
      · have : j < i := by omega
        simp [unitLower, h, this, div_eq_inv_mul]
    · apply sum_congr rfl
      intro d _
      rw [hd]
      have e1 : unitLower M (i + 1 + d) i = M (i + 1 + d) i := by
        unfold unitLower; rw [if_pos (by omega)]
      have e2 : unitLower M (i + 1 + d) j = M (i + 1 + d) j := by
        unfold unitLower; rw [if_pos (by omega)]
      rw [e1, e2]; ring
  · intro k hk
    rw [mem_range] at hk
    unfold unitLower
    rw [if_neg (by omega), if_neg (by omega), zero_mul, zero_mul]

theorem invert_eq (A : Mat K) (n i j : Nat) (hi : i < n) (hj : j < n) :
    invert A n i j = ∑ k ∈ range n, unitLower (invertUnitLower A n) k i * (1 / A k k) *
        unitLower (invertUnitLower A n) k j := by
  rcases le_total j i with h | h
  · rw [(invert_spec A n i j h hi).1, invTerm_eq A n i j h hi]
  · rw [(invert_spec A n j i h hj).2, invTerm_eq A n j i h hj]
    apply sum_congr rfl
    intro k _
    ring

/-- `L D Lᵀ` times the result of `Invert` is the identity. -/
theorem ldlt_mul_invert (A : Mat K) (n : Nat) (hd : ∀ k, k < n → A k k ≠ 0) :
    toM n (ldlt n A) * toM n (invert A n) = 1 := by
  let D : Matrix (Fin n) (Fin n) K := Matrix.diagonal (fun k => A k k)
  let D' : Matrix (Fin n) (Fin n) K := Matrix.diagonal (fun k => 1 / A k k)
  let L := toM n (unitLower A)
  let M := toM n (unitLower (invertUnitLower A n))
  have hL : toM n (ldlt n A) = L * D * L.transpose := by
    ext i j
    rw [Matrix.mul_apply]
    simp only [D, Matrix.mul_diagonal, Matrix.transpose_apply, L, toM, ldlt]
    rw [Finset.sum_range]
  have hI : toM n (invert A n) = M.transpose * D' * M := by
    ext i j
    rw [Matrix.mul_apply]
    simp only [D', Matrix.mul_diagonal, Matrix.transpose_apply, M, toM]
    rw [invert_eq A n i j i.2 j.2, Finset.sum_range]
  have hDD : D * D' = 1 := by
    simp only [D, D', Matrix.diagonal_mul_diagonal]
    rw [← Matrix.diagonal_one]
    congr 1
    ext k
    rw [mul_one_div_cancel (hd k k.2)]
  have hLM : L * M = 1 := lower_mul_inv A n
  have hML : M * L = 1 := mul_eq_one_comm.mp hLM
  have hT : L.transpose * M.transpose = 1 := by
    rw [← Matrix.transpose_mul, hML, Matrix.transpose_one]
  rw [hL, hI]
  calc L * D * L.transpose * (M.transpose * D' * M)
      = L * D * (L.transpose * M.transpose) * D' * M := by simp only [Matrix.mul_assoc]
    _ = L * (D * D') * M := by rw [hT, Matrix.mul_one]; simp only [Matrix.mul_assoc]
    _ = 1 := by rw [hDD, Matrix.mul_one, hLM]

end Gunns
