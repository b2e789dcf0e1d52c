import Verif.LinAlg.CholeskyLemmas
import Verif.LinAlg.Spec
import Mathlib.Algebra.Order.BigOperators.Group.Finset
import Mathlib.Algebra.Order.Ring.Abs

/-!
# Signs, error terms and definiteness for `Decompose`
-/

set_option linter.unusedSectionVars false

namespace Gunns

open Finset Spec

variable {K : Type _} [Field K] [LinearOrder K] [IsStrictOrderedRing K]

theorem cholLimit_neg : (cholLimit : K) < 0 := by
  unfold cholLimit; simp

theorem keepV_nonneg (a b : K) : 0 ≤ keepV a b := by
  unfold keepV
  split
  · rename_i h
    exact mul_nonneg_of_nonpos_of_nonpos (h.1.trans cholLimit_neg).le (h.2.trans cholLimit_neg).le
  · exact le_rfl

theorem flushV_nonpos {x : K} (h : x ≤ 0) : flushV x ≤ 0 := by
  unfold flushV; split
  · exact le_rfl
  · exact h

theorem le_flushV {x : K} (h : x ≤ 0) : x ≤ flushV x := by
  unfold flushV; split
  · exact h
  · exact le_rfl

theorem abs_sub_flushV (x : K) : |x - flushV x| ≤ -cholLimit := by
  unfold flushV; split
  · rename_i h
    rw [sub_zero, abs_le]
    exact ⟨by linarith [h.1], h.2.le⟩
  · simp only [sub_self, abs_zero]
    linarith [cholLimit_neg (K := K)]

theorem keepV_le_mul {a b : K} (ha : a ≤ 0) (hb : b ≤ 0) : keepV a b ≤ a * b := by
  unfold keepV; split
  · exact le_rfl
  · exact mul_nonneg_of_nonpos_of_nonpos ha hb

theorem mul_sub_keepV_le {a b : K} (ha : a ≤ 0) (hb : b ≤ 0) :
    a * b - keepV a b ≤ -cholLimit * (-a + -b) := by
  have hl := cholLimit_neg (K := K)
  unfold keepV; split
  · rw [sub_self]
    exact mul_nonneg (by linarith) (by linarith)
  · rename_i h
    rw [sub_zero]
    rw [not_and_or, not_lt, not_lt] at h
    rcases h with h | h
    · nlinarith [mul_nonneg (sub_nonneg.mpr h) (neg_nonneg.mpr hb),
        mul_nonneg (neg_nonneg.mpr hl.le) (neg_nonneg.mpr ha)]
    · nlinarith [mul_nonneg (sub_nonneg.mpr h) (neg_nonneg.mpr ha),
        mul_nonneg (neg_nonneg.mpr hl.le) (neg_nonneg.mpr hb)]

theorem schur_le (A : Mat K) (i j : Nat) (h : j < i) (m : Nat) : schur A m i j ≤ A i j := by
  rw [schur_offdiag A i j h]
  have : 0 ≤ ∑ k ∈ range m, keepV (pterm A i k) (lterm A j k) :=
    sum_nonneg (fun k _ => keepV_nonneg _ _)
  linarith

theorem pterm_nonpos {n : Nat} {A : Mat K} (ho : OffDiagNonpos n A) {i k : Nat} (hk : k < i)
    (hi : i < n) : pterm A i k ≤ 0 :=
  flushV_nonpos ((schur_le A i k hk k).trans (ho i k hi (by omega) (by omega)))

theorem lterm_nonpos {n : Nat} {A : Mat K} (ho : OffDiagNonpos n A) {i k : Nat} (hk : k < i)
    (hi : i < n) (hp : 0 < piv A k) : lterm A i k ≤ 0 :=
  div_nonpos_of_nonpos_of_nonneg (pterm_nonpos ho hk hi) hp.le

/-- Product of the exact unit-lower/diagonal factors named by `lterm`, `piv`, in recursive form. -/
theorem ldlt_lower (n : Nat) (B : Mat K) (i j : Nat) (hj : j < i) (hi : i < n) :
    ldlt n B i j = B i j * B j j + ∑ k ∈ range j, B i k * B k k * B j k := by
  unfold ldlt
  rw [← sum_subset (s₁ := range (j + 1)) (range_subset_range.mpr (by omega))]
  · rw [sum_range_succ, add_comm]
    congr 1
    · simp [unitLower, hj]
    · apply sum_congr rfl
      intro k hk
      rw [mem_range] at hk
      simp [unitLower, hk, hk.trans hj]
  · intro k _ hk
    rw [mem_range, not_lt] at hk
    have : unitLower B j k = 0 := by
      unfold unitLower
      rw [if_neg (by omega), if_neg (by omega)]
    rw [this, mul_zero]

theorem ldlt_diag (n : Nat) (B : Mat K) (i : Nat) (hi : i < n) :
    ldlt n B i i = B i i + ∑ k ∈ range i, B i k * B k k * B i k := by
  unfold ldlt
  rw [← sum_subset (s₁ := range (i + 1)) (range_subset_range.mpr (by omega))]
  · rw [sum_range_succ, add_comm]
    congr 1
    · simp [unitLower]
    · apply sum_congr rfl
      intro k hk
      rw [mem_range] at hk
      simp [unitLower, hk]
  · intro k _ hk
    rw [mem_range, not_lt] at hk
    have : unitLower B i k = 0 := by
      unfold unitLower
      rw [if_neg (by omega), if_neg (by omega)]
    rw [this, mul_zero]

theorem ldlt_comm (n : Nat) (B : Mat K) (i j : Nat) : ldlt n B i j = ldlt n B j i := by
  unfold ldlt
  apply sum_congr rfl
  intro k _
  ring

/-- The quadratic form of `LDLᵀ` is a sum of squares weighted by the diagonal. -/
theorem quad_ldlt (n : Nat) (B : Mat K) (x : Nat → K) :
    quad n (ldlt n B) x =
      ∑ k ∈ range n, B k k * (∑ i ∈ range n, unitLower B i k * x i) ^ 2 := by
  unfold quad ldlt
  have h1 : ∀ i j, x i * (∑ k ∈ range n, unitLower B i k * B k k * unitLower B j k) * x j =
      ∑ k ∈ range n, B k k * ((unitLower B i k * x i) * (unitLower B j k * x j)) := by
    intro i j
    rw [mul_sum, sum_mul]
    apply sum_congr rfl
    intro k _
    ring
  simp only [h1]
  rw [sum_congr rfl (fun i _ => sum_comm (s := range n) (t := range n)), sum_comm]
  apply sum_congr rfl
  intro k _
  rw [sq, sum_mul_sum, mul_sum]
  apply sum_congr rfl
  intro i _
  rw [mul_sum]

/-- Difference between the matrix and the product of the computed factors, for one term. -/
theorem term_error {n : Nat} {A : Mat K} (ho : OffDiagNonpos n A) {B : Mat K}
    (hB : HoldsFactors A (n - 1) B) (hp : ∀ k, k < n → 0 < piv A k)
    {i j : Nat} (hj : j < i) (hi : i < n) :
    0 ≤ ldlt n B i j - A i j ∧
    ldlt n B i j - A i j ≤
      -cholLimit * (1 + ∑ k ∈ range j, (|B i k * B k k| + |B j k|)) := by
  obtain ⟨d, l, u, -, -⟩ := hB
  have hpt : ∀ i k, i < n → k < i → B i k * B k k = pterm A i k := by
    intro i k hi hk
    rw [l i k (by omega) hk, d k (by omega), lterm, div_mul_cancel₀ _ (hp k (by omega)).ne']
  have hs := schur_offdiag A i j hj j
  have h1 : ldlt n B i j = flushV (schur A j i j) +
      ∑ k ∈ range j, pterm A i k * lterm A j k := by
    rw [ldlt_lower n B i j hj hi, hpt i j hi hj, pterm]
    congr 1
    apply sum_congr rfl
    intro k hk
    rw [mem_range] at hk
    rw [hpt i k hi (by omega), l j k (by omega) hk]
  have hsn : schur A j i j ≤ 0 := (schur_le A i j hj j).trans (ho i j hi (by omega) (by omega))
  have hfl := le_flushV hsn
  have hfa := (abs_le.mp (abs_sub_flushV (schur A j i j))).1
  have hdiff : ldlt n B i j - A i j = (flushV (schur A j i j) - schur A j i j) +
      ∑ k ∈ range j, (pterm A i k * lterm A j k - keepV (pterm A i k) (lterm A j k)) := by
    rw [sum_sub_distrib, h1, hs]; ring
  have hnn : ∀ k ∈ range j,
      0 ≤ pterm A i k * lterm A j k - keepV (pterm A i k) (lterm A j k) := by
    intro k hk
    rw [mem_range] at hk
    have := keepV_le_mul (pterm_nonpos ho (show k < i by omega) hi)
      (lterm_nonpos ho hk (show j < n by omega) (hp k (by omega)))
    linarith
  refine ⟨?_, ?_⟩
  · rw [hdiff]
    have := sum_nonneg hnn
    linarith
  · rw [hdiff, mul_add, mul_one, mul_sum]
    have hsum : ∑ k ∈ range j, (pterm A i k * lterm A j k - keepV (pterm A i k) (lterm A j k)) ≤
        ∑ k ∈ range j, -cholLimit * (|B i k * B k k| + |B j k|) := by
      apply sum_le_sum
      intro k hk
      rw [mem_range] at hk
      have ha := pterm_nonpos ho (show k < i by omega) hi
      have hb := lterm_nonpos ho hk (show j < n by omega) (hp k (by omega))
      rw [hpt i k hi (by omega), l j k (by omega) hk, abs_of_nonpos ha, abs_of_nonpos hb]
      exact mul_sub_keepV_le ha hb
    linarith

theorem diag_exact {n : Nat} {A : Mat K} {B : Mat K}
    (hB : HoldsFactors A (n - 1) B) (hp : ∀ k, k < n → piv A k ≠ 0)
    {i : Nat} (hi : i < n) : ldlt n B i i = A i i := by
  obtain ⟨d, l, u, -, -⟩ := hB
  rw [ldlt_diag n B i hi, d i (by omega), piv, schur_diag]
  have : ∑ k ∈ range i, B i k * B k k * B i k = ∑ k ∈ range i, pterm A i k * lterm A i k := by
    apply sum_congr rfl
    intro k hk
    rw [mem_range] at hk
    rw [l i k (by omega) hk, d k (by omega)]
    congr 1
    rw [lterm, div_mul_cancel₀ _ (hp k (by omega))]
  rw [this]; ring

/-! ### A non-negative vector on which the form of the computed factors is the last pivot -/

/-- Back substitution: a non-negative `x` with `x i = 1`, zero above `i`, and
`(Lᵀ x) k = 0` for `m ≤ k < i`. -/
theorem exists_backsub (L : Mat K) (i : Nat) (hL : ∀ j k, j ≤ i → k < j → L j k ≤ 0) (d : Nat) :
    ∃ x : Nat → K, x i = 1 ∧ (∀ j, 0 ≤ x j) ∧ (∀ j, i < j → x j = 0) ∧
      ∀ k, k < i → i ≤ k + d → x k + ∑ j ∈ range (i + 1), (if k < j then L j k * x j else 0) = 0 := by
  induction d with
  | zero =>
    refine ⟨fun j => if j = i then 1 else 0, by simp, ?_, ?_, ?_⟩
    · intro j; dsimp; split <;> simp
    · intro j hj; dsimp; rw [if_neg (by omega)]
    · intro k h1 h2; omega
  | succ d ih =>
    obtain ⟨x, h1, h2, h3, h4⟩ := ih
    by_cases hd : i ≤ d
    · exact ⟨x, h1, h2, h3, fun k hk _ => h4 k hk (by omega)⟩
    · -- new index
      obtain ⟨q, hq⟩ : ∃ q, q + (d + 1) = i := ⟨i - (d + 1), by omega⟩
      let s : K := ∑ j ∈ range (i + 1), (if q < j then L j q * x j else 0)
      refine ⟨fun j => if j = q then -s else x j, ?_, ?_, ?_, ?_⟩
      · dsimp; rw [if_neg (by omega), h1]
      · intro j
        dsimp
        split
        · have : s ≤ 0 := by
            apply sum_nonpos
            intro j hj
            rw [mem_range] at hj
            split
            · exact mul_nonpos_of_nonpos_of_nonneg (hL j q (by omega) (by assumption)) (h2 j)
            · exact le_rfl
          linarith
        · exact h2 j
      · intro j hj; dsimp; rw [if_neg (by omega), h3 j hj]
      · intro k hk hkd
        have hsum : ∀ k, q ≤ k → ∑ j ∈ range (i + 1),
            (if k < j then L j k * (if j = q then -s else x j) else 0) =
            ∑ j ∈ range (i + 1), (if k < j then L j k * x j else 0) := by
          intro k hk
          apply sum_congr rfl
          intro j _
          split
          · rw [if_neg (by omega)]
          · rfl
        dsimp
        rw [hsum k (by omega)]
        by_cases hkq : k = q
        · rw [if_pos hkq, hkq]
          exact neg_add_cancel s
        · rw [if_neg hkq]
          exact h4 k hk (by omega)

/-- If `A` is symmetric with non-positive off-diagonals and the pivots before `i` are positive, then
some non-zero vector has `xᵀ A x ≤ D_i`. -/
theorem exists_quad_le_piv {n : Nat} {A : Mat K} (hsy : Symm n A) (ho : OffDiagNonpos n A)
    {i : Nat} (hi : i < n) (hp : ∀ k, k < i → 0 < piv A k) :
    ∃ x : Nat → K, x i = 1 ∧ quad n A x ≤ piv A i := by
  -- factors of the leading block as a stored matrix
  let B : Mat K := fun a b => if a = b then piv A a else if b < a then lterm A a b else lterm A b a
  have hBl : ∀ a b, b < a → B a b = lterm A a b := by
    intro a b h
    simp only [B]
    rw [if_neg (by omega), if_pos h]
  have hBd : ∀ a, B a a = piv A a := by intro a; simp [B]
  obtain ⟨x, h1, h2, h3, h4⟩ := exists_backsub (fun a b => lterm A a b) i
    (fun j k hj hk => lterm_nonpos ho hk (by omega) (hp k (by omega))) i
  refine ⟨x, h1, ?_⟩
  have hx : ∀ j, i < j → x j = 0 := h3
  -- reduce the form to the leading block
  have hblock : ∀ M : Mat K, quad n M x = quad (i + 1) M x := by
    intro M
    unfold quad
    rw [← sum_subset (s₁ := range (i + 1)) (range_subset_range.mpr (by omega))]
    · apply sum_congr rfl
      intro a _
      rw [← sum_subset (s₁ := range (i + 1)) (range_subset_range.mpr (by omega))]
      intro b _ hb
      rw [mem_range, not_lt] at hb
      rw [hx b (by omega), mul_zero]
    · intro a _ ha
      rw [mem_range, not_lt] at ha
      apply sum_eq_zero
      intro b _
      rw [hx a (by omega), zero_mul, zero_mul]
  -- value of the factored form
  have hval : quad (i + 1) (ldlt (i + 1) B) x = piv A i := by
    rw [quad_ldlt, sum_range_succ]
    have hz : ∀ k ∈ range i, B k k * (∑ j ∈ range (i + 1), unitLower B j k * x j) ^ 2 = 0 := by
      intro k hk
      rw [mem_range] at hk
      have : ∑ j ∈ range (i + 1), unitLower B j k * x j = 0 := by
        have h := h4 k hk (by omega)
        have hsplit : ∑ j ∈ range (i + 1), unitLower B j k * x j =
            ∑ j ∈ range (i + 1), ((if j = k then x j else 0) +
              (if k < j then lterm A j k * x j else 0)) := by
          apply sum_congr rfl
          intro j _
          unfold unitLower
          by_cases hkj : k < j
          · rw [if_pos hkj, if_neg (by omega), if_pos hkj, hBl j k hkj, zero_add]
          · by_cases hjk : k = j
            · rw [if_neg hkj, if_pos hjk, if_pos hjk.symm, if_neg hkj, one_mul, add_zero]
            · rw [if_neg hkj, if_neg hjk, if_neg (fun h => hjk h.symm), if_neg hkj]; simp
        rw [hsplit, sum_add_distrib, sum_ite_eq' (range (i + 1)) k x, if_pos (mem_range.mpr (by omega))]
        exact h
      rw [this]; simp
    rw [sum_eq_zero hz, zero_add, hBd]
    have : ∑ j ∈ range (i + 1), unitLower B j i * x j = 1 := by
      rw [sum_range_succ]
      rw [sum_eq_zero]
      · simp [unitLower, h1]
      · intro j hj
        rw [mem_range] at hj
        unfold unitLower
        rw [if_neg (by omega), if_neg (by omega), zero_mul]
    rw [this]; ring
  rw [hblock A, ← hval]
  unfold quad
  apply sum_le_sum
  intro a ha
  apply sum_le_sum
  intro b hb
  rw [mem_range] at ha hb
  have key : ∀ a b, b < a → a ≤ i → A a b ≤ ldlt (i + 1) B a b := by
    intro a b hba hai
    rw [ldlt_lower (i + 1) B a b hba (by omega), hBl a b hba, hBd, lterm,
      div_mul_cancel₀ _ (hp b (by omega)).ne']
    have hs := schur_offdiag A a b hba b
    have hf := le_flushV ((schur_le A a b hba b).trans (ho a b (by omega) (by omega) (by omega)))
    have hsum : ∑ k ∈ range b, keepV (pterm A a k) (lterm A b k) ≤
        ∑ k ∈ range b, B a k * B k k * B b k := by
      apply sum_le_sum
      intro k hk
      rw [mem_range] at hk
      rw [hBl a k (by omega), hBd, hBl b k hk]
      have : lterm A a k * piv A k = pterm A a k := by
        rw [lterm, div_mul_cancel₀ _ (hp k (by omega)).ne']
      rw [this]
      exact keepV_le_mul (pterm_nonpos ho (by omega) (by omega))
        (lterm_nonpos ho hk (by omega) (hp k (by omega)))
    rw [pterm]
    linarith
  have hterm : x a * x b * A a b ≤ x a * x b * ldlt (i + 1) B a b := by
    rcases lt_trichotomy a b with h | h | h
    · rw [hsy a b (by omega) (by omega), ldlt_comm]
      exact mul_le_mul_of_nonneg_left (key b a h (by omega)) (mul_nonneg (h2 a) (h2 b))
    · subst h
      have hdiag : ldlt (i + 1) B a a = A a a := by
        rw [ldlt_diag (i + 1) B a ha, hBd, piv, schur_diag]
        have : ∑ k ∈ range a, B a k * B k k * B a k =
            ∑ k ∈ range a, pterm A a k * lterm A a k := by
          apply sum_congr rfl
          intro k hk
          rw [mem_range] at hk
          rw [hBl a k hk, hBd]
          congr 1
          rw [lterm, div_mul_cancel₀ _ (hp k (by omega)).ne']
        rw [this]; ring
      rw [hdiag]
    · exact mul_le_mul_of_nonneg_left (key a b h (by omega)) (mul_nonneg (h2 a) (h2 b))
  calc x a * A a b * x b = x a * x b * A a b := by ring
    _ ≤ _ := hterm
    _ = _ := by ring

/-- Pivots of a positive definite matrix with non-positive off-diagonals are positive. -/
theorem piv_pos_of_posDef {n : Nat} {A : Mat K} (hsy : Symm n A) (ho : OffDiagNonpos n A)
    (hpd : PosDef n A) (i : Nat) (hi : i < n) : 0 < piv A i := by
  induction i using Nat.strong_induction_on with
  | _ i ih =>
    obtain ⟨x, hx, hq⟩ := exists_quad_le_piv hsy ho hi (fun k hk => ih k hk (by omega))
    exact (hpd x ⟨i, hi, by rw [hx]; exact one_ne_zero⟩).trans_le hq

/-- A symmetric matrix with non-positive off-diagonals and positive row sums is positive definite. -/
theorem posDef_of_rowSum_pos {n : Nat} {A : Mat K} (hsy : Symm n A) (ho : OffDiagNonpos n A)
    (hr : ∀ i, i < n → 0 < rowSum n A i) : PosDef n A := by
  intro x ⟨i0, hi0, hx0⟩
  -- 2 xᵀAx = Σ_i 2 r_i x_i² + Σ_ij (-A_ij)(x_i - x_j)²
  have hid : 2 * quad n A x = ∑ i ∈ range n, 2 * (rowSum n A i * x i ^ 2) +
      ∑ i ∈ range n, ∑ j ∈ range n, (-(A i j)) * (x i - x j) ^ 2 := by
    have e1 : ∑ i ∈ range n, ∑ j ∈ range n, (-(A i j)) * (x i - x j) ^ 2 =
        2 * quad n A x - ∑ i ∈ range n, ∑ j ∈ range n, A i j * x i ^ 2 -
          ∑ i ∈ range n, ∑ j ∈ range n, A i j * x j ^ 2 := by
      unfold quad
      rw [mul_sum, ← sum_sub_distrib, ← sum_sub_distrib]
      apply sum_congr rfl
      intro i _
      rw [mul_sum, ← sum_sub_distrib, ← sum_sub_distrib]
      apply sum_congr rfl
      intro j _
      ring
    have e2 : ∑ i ∈ range n, ∑ j ∈ range n, A i j * x j ^ 2 =
        ∑ i ∈ range n, ∑ j ∈ range n, A i j * x i ^ 2 := by
      rw [sum_comm]
      apply sum_congr rfl
      intro i hi
      apply sum_congr rfl
      intro j hj
      rw [mem_range] at hi hj
      rw [hsy j i hj hi]
    have e3 : ∑ i ∈ range n, 2 * (rowSum n A i * x i ^ 2) =
        2 * ∑ i ∈ range n, ∑ j ∈ range n, A i j * x i ^ 2 := by
      rw [mul_sum]
      apply sum_congr rfl
      intro i _
      rw [rowSum, sum_mul]
    rw [e1, e2, e3]; ring
  have hpos1 : 0 < ∑ i ∈ range n, 2 * (rowSum n A i * x i ^ 2) := by
    apply sum_pos'
    · intro i hi
      rw [mem_range] at hi
      exact mul_nonneg (by norm_num) (mul_nonneg (hr i hi).le (sq_nonneg _))
    · exact ⟨i0, mem_range.mpr hi0, mul_pos (by norm_num) (mul_pos (hr i0 hi0) (by positivity))⟩
  have hpos2 : 0 ≤ ∑ i ∈ range n, ∑ j ∈ range n, (-(A i j)) * (x i - x j) ^ 2 := by
    apply sum_nonneg
    intro i hi
    apply sum_nonneg
    intro j hj
    rw [mem_range] at hi hj
    by_cases hij : i = j
    · subst hij; simp
    · exact mul_nonneg (neg_nonneg.mpr (ho i j hi hj hij)) (sq_nonneg _)
  linarith

theorem decompose_ok_of_piv {n : Nat} {A : Mat K} (hp : ∀ i, i < n → 0 < piv A i) :
    ∃ B, decompose A n = .ok B ∧ HoldsFactors A (n - 1) B := by
  obtain ⟨s1, s2, s3⟩ := decomposeTo_spec A (n - 1)
  unfold decompose
  cases hr : decomposeTo A (n - 1) with
  | ok B => exact ⟨B, rfl, (s1 B hr).1⟩
  | failed i B =>
    obtain ⟨h1, h2, h3, -⟩ := s2 i B hr
    exact absurd h3 (not_le.mpr (hp i (by omega)))
  | divByZero i =>
    obtain ⟨h1, h2, h3⟩ := s3 i hr
    exact absurd h3 (hp 0 (by omega)).ne'

theorem ok_facts {n : Nat} {A B : Mat K} (h00 : 0 < A 0 0) (h : decompose A n = .ok B) :
    HoldsFactors A (n - 1) B ∧ ∀ i, i < n → 0 < piv A i := by
  obtain ⟨s1, -, -⟩ := decomposeTo_spec A (n - 1)
  obtain ⟨hB, hp, -⟩ := s1 B h
  refine ⟨hB, fun i hi => ?_⟩
  by_cases h0 : i = 0
  · subst h0; exact h00
  · exact hp i (by omega) (by omega)

end Gunns
