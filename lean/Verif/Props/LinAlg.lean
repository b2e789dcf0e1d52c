import Verif.LinAlg.InvertLemmas
import Mathlib.Data.Rat.Defs
import Mathlib.Algebra.Order.Ring.Rat
import Mathlib.Algebra.Field.Rat
import Mathlib.Tactic.IntervalCases
import Mathlib.Tactic.NormNum

/-!
# Properties C01-C06: the LDU solver (`CholeskyLdu`)

Statements use the model of the code (`decompose`, `solve`, `invert`) and the vocabulary of
`Verif.LinAlg.Spec` only.
-/

set_option linter.unusedSectionVars false

namespace Gunns.Props

open Finset Gunns.Spec

variable {K : Type _} [Field K] [LinearOrder K] [IsStrictOrderedRing K]

/-! ## Sample matrices for the examples -/

/-- Matrix from a list of rows. -/
def ofRows (rows : List (List ℚ)) : Mat ℚ := fun i j => (rows.getD i []).getD j 0

/-- A connected 4-node network matrix with fill-in, strictly diagonally dominant. -/
def sampleNet : Mat ℚ :=
  ofRows [[4, -1, -2, 0], [-1, 3, 0, -1], [-2, 0, 5, -2], [0, -1, -2, 4]]

theorem sampleNet_symm : Symm 4 sampleNet := by
  intro i j hi hj
  interval_cases i <;> interval_cases j <;> rfl

theorem sampleNet_off : OffDiagNonpos 4 sampleNet := by
  intro i j hi hj hij
  interval_cases i <;> interval_cases j <;> first | omega | (norm_num [sampleNet, ofRows])

theorem sampleNet_rows : ∀ i, i < 4 → 0 < rowSum 4 sampleNet i := by
  intro i hi
  interval_cases i <;> norm_num [rowSum, sum_range_succ, sampleNet, ofRows]

/-! ## C02 -/

/-- **C03 (completeness).** `Decompose` never rejects a positive definite symmetric matrix with
non-positive off-diagonal terms, and then leaves only positive pivots on the diagonal. -/
theorem c03_posDef_accepted {n : Nat} {A : Mat K} (hsy : Symm n A) (ho : OffDiagNonpos n A)
    (hpd : PosDef n A) : ∃ B, decompose A n = .ok B ∧ ∀ i, i < n → 0 < B i i := by
  have hp := piv_pos_of_posDef hsy ho hpd
  obtain ⟨B, hB, hf⟩ := decompose_ok_of_piv hp
  exact ⟨B, hB, fun i hi => by rw [hf.1 i (by omega)]; exact hp i hi⟩

/-- **C02.** A symmetric matrix with non-positive off-diagonal terms and positive row sums is always
decomposed, with positive pivots. -/
theorem c02_decompose_succeeds {n : Nat} {A : Mat K} (hsy : Symm n A) (ho : OffDiagNonpos n A)
    (hr : ∀ i, i < n → 0 < rowSum n A i) :
    ∃ B, decompose A n = .ok B ∧ ∀ i, i < n → 0 < B i i :=
  c03_posDef_accepted hsy ho (posDef_of_rowSum_pos hsy ho hr)

example : ∃ B, decompose sampleNet 4 = .ok B ∧ ∀ i, i < 4 → 0 < B i i :=
  c02_decompose_succeeds sampleNet_symm sampleNet_off sampleNet_rows

/-! ## C01 -/

/-- **C01 (backward error).** On a symmetric matrix with non-positive off-diagonal terms and a positive
first term, the factors left by a successful `Decompose` multiply back to the matrix: exactly on
the diagonal, and off the diagonal up to a non-negative error bounded by the 1e-100 threshold times
one plus the sizes of the factor terms. -/
theorem c01_decompose_backward_error {n : Nat} {A B : Mat K} (hsy : Symm n A)
    (ho : OffDiagNonpos n A) (h00 : 0 < A 0 0) (h : decompose A n = .ok B) :
    UpperIsLower n B ∧ (∀ i, i < n → ldlt n B i i = A i i) ∧
    ∀ i j, j < i → i < n → 0 ≤ ldlt n B i j - A i j ∧
      ldlt n B i j - A i j ≤ 1 / 10 ^ 100 * (1 + ∑ k ∈ range j, (|B i k * B k k| + |B j k|)) ∧
      ldlt n B j i = ldlt n B i j ∧ A j i = A i j := by
  obtain ⟨hB, hp⟩ := ok_facts h00 h
  refine ⟨?_, ?_, ?_⟩
  · intro i k hi hk
    rw [hB.2.2.1 i k (by omega) hk, hB.2.1 i k (by omega) hk]
  · intro i hi
    exact diag_exact hB (fun k hk => (hp k hk).ne') hi
  · intro i j hj hi
    obtain ⟨e1, e2⟩ := term_error ho hB hp hj hi
    rw [show (-cholLimit : K) = 1 / 10 ^ 100 by unfold cholLimit; ring] at e2
    exact ⟨e1, e2, ldlt_comm n B j i, hsy j i (by omega) hi⟩

example : ∃ B, decompose sampleNet 4 = .ok B ∧ ∀ i, i < 4 → ldlt 4 B i i = sampleNet i i := by
  obtain ⟨B, hB, -⟩ := c02_decompose_succeeds sampleNet_symm sampleNet_off sampleNet_rows
  exact ⟨B, hB, (c01_decompose_backward_error sampleNet_symm sampleNet_off
    (by norm_num [sampleNet, ofRows]) hB).2.1⟩

/-- **C01 (exactness).** If the matrix is the product `L·D·Lᵀ` of a unit lower factor and a positive
diagonal, and no `L i k` or `L i k * D k` lies in the band `[-1e-100, 0)` (nor is positive), then
`Decompose` returns exactly these factors, with `Lᵀ` above the diagonal. -/
theorem c01_decompose_exact {n : Nat} {A : Mat K} (L : Nat → Nat → K) (D : Nat → K)
    (hD : ∀ k, k < n → 0 < D k)
    (hband : ∀ i k, k < i → i < n → (L i k = 0 ∨ L i k < -(1 / 10 ^ 100)) ∧
      (L i k * D k = 0 ∨ L i k * D k < -(1 / 10 ^ 100)))
    (hA : ∀ i j, j < i → i < n → A i j = L i j * D j + ∑ k ∈ range j, L i k * D k * L j k)
    (hAd : ∀ i, i < n → A i i = D i + ∑ k ∈ range i, L i k * D k * L i k) :
    ∃ B, decompose A n = .ok B ∧ (∀ i, i < n → B i i = D i) ∧
      ∀ i k, k < i → i < n → B i k = L i k ∧ B k i = L i k := by
  have hl := cholLimit_neg (K := K)
  have hkeep : ∀ a b : K, (a = 0 ∨ a < cholLimit) → (b = 0 ∨ b < cholLimit) → keepV a b = a * b := by
    intro a b ha hb
    unfold keepV
    split
    · rfl
    · rename_i h
      rcases ha with ha | ha
      · rw [ha, zero_mul]
      · rcases hb with hb | hb
        · rw [hb, mul_zero]
        · exact absurd ⟨ha, hb⟩ h
  have hflush : ∀ a : K, (a = 0 ∨ a < cholLimit) → flushV a = a := by
    intro a ha
    unfold flushV
    split
    · rename_i h
      rcases ha with ha | ha
      · exact ha.symm
      · exact absurd h.1 (not_lt.mpr ha.le)
    · rfl
  have key : ∀ k, k < n → (∀ i, k < i → i < n → pterm A i k = L i k * D k) ∧ piv A k = D k := by
    intro k
    induction k using Nat.strong_induction_on with
    | _ k ih =>
      intro hk
      have hl' : ∀ i m, m < k → m < i → i < n → lterm A i m = L i m := by
        intro i m hm hmi hi
        rw [lterm, (ih m hm (by omega)).1 i hmi hi, (ih m hm (by omega)).2,
          mul_div_cancel_right₀ _ (hD m (by omega)).ne']
      refine ⟨?_, ?_⟩
      · intro i hki hi
        rw [pterm, schur_offdiag A i k hki k, hA i k hki hi]
        have : ∑ m ∈ range k, keepV (pterm A i m) (lterm A k m) =
            ∑ m ∈ range k, L i m * D m * L k m := by
          apply sum_congr rfl
          intro m hm
          rw [mem_range] at hm
          rw [(ih m hm (by omega)).1 i (by omega) hi, hl' k m hm hm hk,
            hkeep _ _ (hband i m (by omega) hi).2 (hband k m hm hk).1]
        rw [this, add_sub_cancel_right]
        exact hflush _ (hband i k hki hi).2
      · rw [piv, schur_diag, hAd k hk]
        have : ∑ m ∈ range k, pterm A k m * lterm A k m =
            ∑ m ∈ range k, L k m * D m * L k m := by
          apply sum_congr rfl
          intro m hm
          rw [mem_range] at hm
          rw [(ih m hm (by omega)).1 k hm hk, hl' k m hm hm hk]
        rw [this, add_sub_cancel_right]
  obtain ⟨B, hB, hf⟩ := decompose_ok_of_piv (n := n) (A := A)
    (fun i hi => by rw [(key i hi).2]; exact hD i hi)
  have hlt : ∀ i k, k < i → i < n → lterm A i k = L i k := by
    intro i k hk hi
    rw [lterm, (key k (by omega)).1 i hk hi, (key k (by omega)).2,
      mul_div_cancel_right₀ _ (hD k (by omega)).ne']
  refine ⟨B, hB, ?_, ?_⟩
  · intro i hi
    rw [hf.1 i (by omega), (key i hi).2]
  · intro i k hk hi
    exact ⟨by rw [hf.2.1 i k (by omega) hk, hlt i k hk hi],
      by rw [hf.2.2.1 i k (by omega) hk, hlt i k hk hi]⟩

/-- Sample factors with a fill-in term. -/
def sampleL : Mat ℚ := ofRows [[1], [-1/2, 1], [-1/4, 0, 1], [0, -1/3, -1/5, 1]]

example : ∃ B, decompose (ldlt 4 (fun i j => if i = j then (i : ℚ) + 2 else sampleL i j)) 4 = .ok B ∧
    ∀ i k, k < i → i < 4 → B i k = sampleL i k ∧ B k i = sampleL i k := by
  obtain ⟨B, hB, -, hl⟩ := c01_decompose_exact (n := 4)
    (A := ldlt 4 (fun i j => if i = j then (i : ℚ) + 2 else sampleL i j)) sampleL
    (fun i => (i : ℚ) + 2) (fun k _ => by positivity)
    (fun i k hk hi => by
      interval_cases i <;> interval_cases k <;> norm_num [sampleL, ofRows])
    (fun i j hj hi => by
      rw [ldlt_lower _ _ _ _ hj hi]
      interval_cases i <;> interval_cases j <;> norm_num [sampleL, ofRows, sum_range_succ])
    (fun i hi => by
      rw [ldlt_diag _ _ _ hi]
      interval_cases i <;> norm_num [sampleL, ofRows, sum_range_succ])
  exact ⟨B, hB, hl⟩

/-- **C01 (limits).** With positive off-diagonal terms the sparse short-cut drops terms that matter: a
positive definite matrix is accepted, but the factors do not multiply back to it. -/
theorem c01_positive_offdiag_wrong :
    ∃ (A B : Mat ℚ), decompose A 3 = .ok B ∧ ldlt 3 B 2 1 ≠ A 2 1 := by
  let A := ofRows [[2, 1, 1], [1, 2, 1], [1, 1, 2]]
  have h : (match decompose A 3 with
    | .ok B => decide (B 2 1 * B 1 1 + B 2 0 * B 0 0 * B 1 0 ≠ A 2 1) | _ => false) = true := by
    decide +kernel
  revert h
  cases hr : decompose A 3 with
  | ok B =>
    intro h
    refine ⟨A, B, hr, ?_⟩
    rw [ldlt_lower 3 B 2 1 (by omega) (by omega)]
    simpa using h
  | failed i B => simp
  | divByZero i => simp

/-! ## C03 -/

/-- **C03 (decision).** The outcome of `Decompose` is decided by the diagonal it leaves: it throws at
row `i ≥ 1` exactly when the pivot left there is `≤ 0`, all earlier ones (but the first) being
positive; a normal return leaves positive pivots on rows `≥ 1`; a division by zero happens exactly
when the first diagonal term is zero and there is a second row. -/
theorem c03_decompose_decision {n : Nat} (A : Mat K) :
    (∀ B, decompose A n = .ok B → B 0 0 = A 0 0 ∧ ∀ i, 1 ≤ i → i < n → 0 < B i i) ∧
    (∀ i B, decompose A n = .failed i B → B 0 0 = A 0 0 ∧ 1 ≤ i ∧ i < n ∧ B i i ≤ 0 ∧
      ∀ j, 1 ≤ j → j < i → 0 < B j j) ∧
    ((∃ i, decompose A n = .divByZero i) ↔ (2 ≤ n ∧ A 0 0 = 0)) := by
  obtain ⟨s1, s2, s3⟩ := decomposeTo_spec A (n - 1)
  refine ⟨?_, ?_, ?_⟩
  · intro B h
    obtain ⟨hB, hp, h0⟩ := s1 B h
    exact ⟨hB.1 0 (by omega), fun i h1 h2 => by rw [hB.1 i (by omega)]; exact hp i h1 (by omega)⟩
  · intro i B h
    obtain ⟨h1, h2, h3, h4, hB, h6⟩ := s2 i B h
    refine ⟨hB.1 0 (by omega), h1, by omega, by rw [hB.1 i le_rfl]; exact h3, ?_⟩
    intro j hj1 hj2
    rw [hB.1 j (by omega)]; exact h6 j hj1 hj2
  · constructor
    · rintro ⟨i, h⟩
      obtain ⟨h1, h2, h3⟩ := s3 i h
      exact ⟨by omega, h3⟩
    · rintro ⟨hn, hz⟩
      cases hr : decompose A n with
      | ok B => exact absurd hz ((s1 B hr).2.2 (by omega))
      | failed i B => exact absurd hz (s2 i B hr).2.2.2.1
      | divByZero i => exact ⟨i, rfl⟩

/-- **C03 (soundness, partial).** If the first diagonal term is positive and `Decompose` succeeds then the
product of the factors is positive definite.  Missing for the full claim: the product differs from
the matrix by the errors of C01, and the first term is not checked; see the two witnesses. -/
theorem c03_accepted_posDef_partial {n : Nat} {A B : Mat K} (h00 : 0 < A 0 0)
    (h : decompose A n = .ok B) : PosDef n (ldlt n B) := by
  obtain ⟨hB, hp⟩ := ok_facts h00 h
  have hd : ∀ i, i < n → 0 < B i i := fun i hi => by rw [hB.1 i (by omega)]; exact hp i hi
  rintro x ⟨i0, hi0, hx0⟩
  rw [quad_ldlt]
  apply sum_pos'
  · intro k hk
    rw [mem_range] at hk
    exact mul_nonneg (hd k hk).le (sq_nonneg _)
  · -- the largest index with a non-zero component
    by_contra hcon
    push Not at hcon
    have hz : ∀ k, k < n → ∑ i ∈ range n, unitLower B i k * x i = 0 := by
      intro k hk
      by_contra hne
      have h1 := hcon k (mem_range.mpr hk)
      have h2 : 0 < B k k * (∑ i ∈ range n, unitLower B i k * x i) ^ 2 :=
        mul_pos (hd k hk) (by positivity)
      linarith
    have hall : ∀ m k, k < n → n - 1 - k = m → x k = 0 := by
      intro m
      induction m using Nat.strong_induction_on with
      | _ m ih =>
        intro k hk hm
        have hs := hz k hk
        rw [Finset.sum_eq_single_of_mem k (mem_range.mpr hk)] at hs
        · simpa [unitLower] using hs
        · intro j hj hjk
          rw [mem_range] at hj
          by_cases hkj : k < j
          · rw [ih (n - 1 - j) (by omega) j hj rfl, mul_zero]
          · unfold unitLower
            rw [if_neg hkj, if_neg (by omega), zero_mul]
    exact hx0 (hall _ i0 hi0 rfl)

example : PosDef 4 sampleNet := posDef_of_rowSum_pos sampleNet_symm sampleNet_off sampleNet_rows

/-- **C03 (witness).** The first pivot is never checked: a matrix with a negative first diagonal term
is accepted, though it is not positive definite. -/
theorem c03_negative_first_pivot_accepted :
    ∃ (A B : Mat ℚ), Symm 2 A ∧ OffDiagNonpos 2 A ∧ decompose A 2 = .ok B ∧ A 0 0 < 0 ∧
      ¬ PosDef 2 A := by
  let A := ofRows [[-1, -1], [-1, 1]]
  have h : (match decompose A 2 with | .ok _ => true | _ => false) = true := by decide +kernel
  revert h
  cases hr : decompose A 2 with
  | ok B =>
    intro _
    refine ⟨A, B, ?_, ?_, hr, by norm_num [A, ofRows], ?_⟩
    · intro i j hi hj
      interval_cases i <;> interval_cases j <;> rfl
    · intro i j hi hj hij
      interval_cases i <;> interval_cases j <;> first | omega | norm_num [A, ofRows]
    · intro hpd
      have := hpd (fun i => if i = 0 then 1 else 0) ⟨0, by omega, by simp⟩
      norm_num [quad, sum_range_succ, A, ofRows] at this
  | failed i B => simp
  | divByZero i => simp

/-- **C03 (witness).** The flush of tiny terms makes `Decompose` accept some indefinite matrices. -/
theorem c03_indefinite_accepted :
    ∃ (A B : Mat ℚ), Symm 2 A ∧ OffDiagNonpos 2 A ∧ 0 < A 0 0 ∧ decompose A 2 = .ok B ∧
      ¬ PosDef 2 A := by
  let A := ofRows [[1 / 10 ^ 102, -1 / 10 ^ 101], [-1 / 10 ^ 101, 1 / 10 ^ 102]]
  have h : (match decompose A 2 with | .ok _ => true | _ => false) = true := by decide +kernel
  revert h
  cases hr : decompose A 2 with
  | ok B =>
    intro _
    refine ⟨A, B, ?_, ?_, by norm_num [A, ofRows], hr, ?_⟩
    · intro i j hi hj
      interval_cases i <;> interval_cases j <;> rfl
    · intro i j hi hj hij
      interval_cases i <;> interval_cases j <;> first | omega | norm_num [A, ofRows]
    · intro hpd
      have := hpd (fun _ => 1) ⟨0, by omega, by simp⟩
      norm_num [quad, sum_range_succ, A, ofRows] at this
  | failed i B => simp
  | divByZero i => simp

/-! ## C04 -/

/-- **C04 (correctness).** If `Solve` returns then its vector satisfies `L·D·Lᵀ x = b`, whatever the
previous contents of the result array. -/
theorem c04_solve_correct {n : Nat} {B : Mat K} {b x0 x : Vect K} (hu : UpperIsLower n B)
    (h : solve B b x0 n = .ok x) : ∀ i, i < n → mulVec n (ldlt n B) x i = b i := by
  by_cases hn : n = 0
  · intro i hi; omega
  obtain ⟨s1, -, -⟩ := solve_spec B b x0 n hn
  obtain ⟨-, hx⟩ := s1 x h
  intro i hi
  rw [mulVec_ldlt n B hu x i, ← lower_solves B b x0 n i hi]
  unfold mulVec
  apply sum_congr rfl
  intro k hk
  rw [mem_range] at hk
  rw [← hx k hk]
  rfl

/-- **C04 (uniqueness).** The vector returned is the only solution. -/
theorem c04_solve_unique {n : Nat} {B : Mat K} {b x0 x z : Vect K} (hu : UpperIsLower n B)
    (h : solve B b x0 n = .ok x) (hz : ∀ i, i < n → mulVec n (ldlt n B) z i = b i) :
    ∀ i, i < n → z i = x i := by
  by_cases hn : n = 0
  · intro i hi; omega
  obtain ⟨s1, -, -⟩ := solve_spec B b x0 n hn
  obtain ⟨hd, hx⟩ := s1 x h
  have h1 : ∀ k, k < n → B k k * mulVec n (unitUpper B) z k = B k k * mulVec n (unitUpper B) x k := by
    apply unitLower_inj n B (fun k => B k k * mulVec n (unitUpper B) z k)
      (fun k => B k k * mulVec n (unitUpper B) x k)
    intro k hk
    rw [← mulVec_ldlt n B hu z k, ← mulVec_ldlt n B hu x k, hz k hk, c04_solve_correct hu h k hk]
  apply unitUpper_inj n B
  intro k hk
  exact mul_left_cancel₀ (hd k hk) (h1 k hk)

/-- **C04 (failure).** For `n ≥ 1`, `Solve` throws exactly when some diagonal term is zero, reporting the
first one; otherwise it returns. -/
theorem c04_solve_outcome {n : Nat} (hn : 1 ≤ n) (B : Mat K) (b x0 : Vect K) :
    ((∃ r x, solve B b x0 n = .failed r x) ↔ ∃ k, k < n ∧ B k k = 0) ∧
    ((∃ x, solve B b x0 n = .ok x) ↔ ∀ k, k < n → B k k ≠ 0) ∧
    (∀ r x, solve B b x0 n = .failed r x → r < n ∧ B r r = 0 ∧ ∀ k, k < r → B k k ≠ 0) := by
  obtain ⟨s1, s2, s3⟩ := solve_spec B b x0 n (by omega)
  refine ⟨?_, ?_, s2⟩
  · constructor
    · rintro ⟨r, x, h⟩
      exact ⟨r, (s2 r x h).1, (s2 r x h).2.1⟩
    · rintro ⟨k, hk, hz⟩
      cases hr : solve B b x0 n with
      | ok x => exact absurd hz ((s1 x hr).1 k hk)
      | failed r x => exact ⟨r, x, rfl⟩
      | outOfBounds => exact absurd hr s3
  · constructor
    · rintro ⟨x, h⟩
      exact (s1 x h).1
    · intro hd
      cases hr : solve B b x0 n with
      | ok x => exact ⟨x, rfl⟩
      | failed r x => exact absurd (s2 r x hr).2.1 (hd r (s2 r x hr).1)
      | outOfBounds => exact absurd hr s3

/-- **C04.** `Solve` on an empty system accesses its arrays out of bounds: it relies on `n ≥ 1`. -/
theorem c04_solve_empty (B : Mat K) (b x0 : Vect K) : solve B b x0 0 = .outOfBounds := rfl

example : ∃ B x, decompose sampleNet 4 = .ok B ∧ solve B (fun i => (i : ℚ)) (fun _ => 7) 4 = .ok x ∧
    ∀ i, i < 4 → mulVec 4 (ldlt 4 B) x i = i := by
  obtain ⟨B, hB, hp⟩ := c02_decompose_succeeds sampleNet_symm sampleNet_off sampleNet_rows
  obtain ⟨x, hx⟩ := (c04_solve_outcome (n := 4) (by omega) B (fun i => (i : ℚ)) (fun _ => 7)).2.1.mpr
    (fun k hk => (hp k hk).ne')
  exact ⟨B, x, hB, hx, c04_solve_correct (c01_decompose_backward_error sampleNet_symm sampleNet_off
    (by norm_num [sampleNet, ofRows]) hB).1 hx⟩

/-! ## C05 -/

/-- **C05.** For a symmetric matrix with non-positive off-diagonals and positive row sums, decomposing and
solving is monotone: larger sources give larger potentials at every node. -/
theorem c05_solution_monotone {n : Nat} {A B : Mat K} (hsy : Symm n A) (ho : OffDiagNonpos n A)
    (hr : ∀ i, i < n → 0 < rowSum n A i) (hB : decompose A n = .ok B)
    {b b' x0 x0' x x' : Vect K} (hb : ∀ i, i < n → b i ≤ b' i)
    (h : solve B b x0 n = .ok x) (h' : solve B b' x0' n = .ok x') :
    ∀ i, i < n → x i ≤ x' i := by
  by_cases hn : n = 0
  · intro i hi; omega
  have hpd := posDef_of_rowSum_pos hsy ho hr
  have hp := piv_pos_of_posDef hsy ho hpd
  obtain ⟨s1, -, -⟩ := decomposeTo_spec A (n - 1)
  obtain ⟨⟨hd, hl, hu, -, -⟩, -, -⟩ := s1 B hB
  have hlow : ∀ i k, k < i → i < n → B i k ≤ 0 := by
    intro i k hk hi
    rw [hl i k (by omega) hk]
    exact lterm_nonpos ho hk hi (hp k (by omega))
  have hupp : ∀ i k, k < i → i < n → B k i ≤ 0 := by
    intro i k hk hi
    rw [hu i k (by omega) hk]
    exact lterm_nonpos ho hk hi (hp k (by omega))
  have hdp : ∀ k, k < n → 0 < B k k := fun k hk => by rw [hd k (by omega)]; exact hp k hk
  have hfw : ∀ k, k < n → solveUnitLower B b x0 n k ≤ solveUnitLower B b' x0' n k := by
    intro k
    induction k using Nat.strong_induction_on with
    | _ k ih =>
      intro hk
      rw [solveUnitLower_spec B b x0 n k hk, solveUnitLower_spec B b' x0' n k hk]
      have : ∑ i ∈ range k, solveUnitLower B b' x0' n i * B k i ≤
          ∑ i ∈ range k, solveUnitLower B b x0 n i * B k i := by
        apply sum_le_sum
        intro i hi
        rw [mem_range] at hi
        exact mul_le_mul_of_nonpos_right (ih i hi (by omega)) (hlow k i hi hk)
      linarith [hb k hk]
  obtain ⟨-, hx⟩ := (solve_spec B b x0 n hn).1 x h
  obtain ⟨-, hx'⟩ := (solve_spec B b' x0' n hn).1 x' h'
  have hup : ∀ k, k < n → mulVec n (unitUpper B) x k ≤ mulVec n (unitUpper B) x' k := by
    intro k hk
    have h1 := hfw k hk
    rw [← hx k hk, ← hx' k hk] at h1
    exact le_of_mul_le_mul_left h1 (hdp k hk)
  have main : ∀ m k, k < n → n - 1 - k = m → x k ≤ x' k := by
    intro m
    induction m using Nat.strong_induction_on with
    | _ m ih =>
      intro k hk hm
      have h1 := hup k hk
      rw [mulVec_unitUpper n B x k hk, mulVec_unitUpper n B x' k hk] at h1
      have h2 : ∑ d ∈ range (n - 1 - k), x' (k + 1 + d) * B k (k + 1 + d) ≤
          ∑ d ∈ range (n - 1 - k), x (k + 1 + d) * B k (k + 1 + d) := by
        apply sum_le_sum
        intro d hd'
        rw [mem_range] at hd'
        exact mul_le_mul_of_nonpos_right (ih (n - 1 - (k + 1 + d)) (by omega) _ (by omega) rfl)
          (hupp _ _ (by omega) (by omega))
      linarith
  exact fun k hk => main _ k hk rfl

/-- **C05.** Non-negative sources give non-negative potentials. -/
theorem c05_solution_nonneg {n : Nat} {A B : Mat K} (hsy : Symm n A) (ho : OffDiagNonpos n A)
    (hr : ∀ i, i < n → 0 < rowSum n A i) (hB : decompose A n = .ok B)
    {b x0 x : Vect K} (hb : ∀ i, i < n → 0 ≤ b i) (h : solve B b x0 n = .ok x) :
    ∀ i, i < n → 0 ≤ x i := by
  intro i hi
  have h00 : 0 < A 0 0 := piv_pos_of_posDef hsy ho (posDef_of_rowSum_pos hsy ho hr) 0 (by omega)
  have hd := (c04_solve_outcome (n := n) (by omega) B b x0).2.1.mp ⟨x, h⟩
  obtain ⟨z, hz⟩ := (c04_solve_outcome (n := n) (by omega) B (fun _ => 0) x0).2.1.mpr hd
  have hz0 : ∀ i, i < n → (0 : K) = z i :=
    c04_solve_unique (z := fun _ => 0) (c01_decompose_backward_error hsy ho h00 hB).1 hz
      (fun i _ => by simp [mulVec])
  have := c05_solution_monotone hsy ho hr hB (b := fun _ => 0) hb hz h i hi
  rwa [← hz0 i hi] at this

example : ∃ B x, decompose sampleNet 4 = .ok B ∧ solve B (fun i => (i : ℚ)) (fun _ => 7) 4 = .ok x ∧
    ∀ i, i < 4 → 0 ≤ x i := by
  obtain ⟨B, hB, hp⟩ := c02_decompose_succeeds sampleNet_symm sampleNet_off sampleNet_rows
  obtain ⟨x, hx⟩ := (c04_solve_outcome (n := 4) (by omega) B (fun i => (i : ℚ)) (fun _ => 7)).2.1.mpr
    (fun k hk => (hp k hk).ne')
  exact ⟨B, x, hB, hx, c05_solution_nonneg sampleNet_symm sampleNet_off sampleNet_rows hB
    (fun i _ => by positivity) hx⟩

/-! ## C06 -/

/-- **C06.** `Invert` leaves a symmetric matrix whose product with `L·D·Lᵀ` is the identity. -/
theorem c06_invert_correct {n : Nat} (B : Mat K) (hd : ∀ k, k < n → B k k ≠ 0) :
    (∀ i j, i < n → j < n →
      ∑ k ∈ range n, ldlt n B i k * invert B n k j = if i = j then 1 else 0) ∧
    Symm n (invert B n) := by
  refine ⟨?_, ?_⟩
  · intro i j hi hj
    have h := congrFun (congrFun (ldlt_mul_invert B n hd) ⟨i, hi⟩) ⟨j, hj⟩
    rw [toM_mul, Matrix.one_apply] at h
    simpa using h
  · intro i j hi hj
    rw [invert_eq B n i j hi hj, invert_eq B n j i hj hi]
    apply sum_congr rfl
    intro k _
    ring

example : invert (ofRows [[2, -1/2], [-1/2, 4]]) 2 1 1 = (1 / 4 : ℚ) := by decide +kernel

end Gunns.Props
