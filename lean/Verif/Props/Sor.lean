import Verif.LinAlg.SorLemmas
import Verif.Props.LinAlg
import Mathlib.Algebra.Order.Archimedean.Basic
import Mathlib.Data.Finset.Max
import Mathlib.Algebra.Order.Archimedean.Real.Basic

/-!
# Property C07: the successive over-relaxation solver (`Sor`)
-/

set_option linter.unusedSectionVars false

namespace Gunns.Props

open Finset Gunns.Spec

variable {K : Type _} [Field K] [LinearOrder K] [IsStrictOrderedRing K]

/-- `x'` is the result of one relaxation sweep with weight `w` applied to `y`: each row uses the new
values of the rows before it and the old values of the rows after it. -/
def IsSweep (n : Nat) (A : Nat → Nat → K) (B : Nat → K) (w : K) (y x' : Nat → K) : Prop :=
  ∀ i, i < n → x' i = (1 - w) * y i + w / A i i *
    (B i - ∑ j ∈ range n, (if j < i then A i j * x' j else if i < j then A i j * y j else 0))

theorem split_row (n i : Nat) (hi : i < n) (f g : Nat → K) :
    ∑ j ∈ range n, (if j < i then f j else if i < j then g j else 0) =
      ∑ j ∈ range i, f j + ∑ d ∈ range (n - (i + 1)), g (i + 1 + d) := by
  obtain ⟨m, rfl⟩ : ∃ m, n = (i + 1) + m := ⟨n - (i + 1), by omega⟩
  rw [sum_range_add, sum_range_succ, show i + 1 + m - (i + 1) = m by omega]
  congr 1
  · rw [if_neg (by omega), if_neg (by omega), add_zero]
    apply sum_congr rfl
    intro j hj
    rw [mem_range] at hj
    rw [if_pos hj]
  · apply sum_congr rfl
    intro d _
    rw [if_neg (by omega), if_pos (by omega)]

theorem sorSweep_isSweep (A : Mat K) (B : Vect K) (w : K) (n : Nat) (y : Vect K) :
    IsSweep n A B w y (sorSweep A B w n y).1 := by
  intro i hi
  obtain ⟨-, h2, -⟩ := sweep_prefix A B w n y n
  obtain ⟨g1, -, -⟩ := sweep_prefix A B w n y i
  rw [split_row n i hi]
  have e1 : (sorSweep A B w n y).1 i = sorTerm A B w n (loop (sorRow A B w n) i (y, 0)).1 i := h2 i hi
  rw [e1, sorTerm, sorLower_eq, sorUpper_eq, g1 i le_rfl]
  have e2 : ∑ j ∈ range i, A i j * (loop (sorRow A B w n) i (y, 0)).1 j =
      ∑ j ∈ range i, A i j * (sorSweep A B w n y).1 j := by
    apply sum_congr rfl
    intro j hj
    rw [mem_range] at hj
    rw [sweep_stable A B w n y n i j hj hi.le]
    rfl
  have e3 : ∑ d ∈ range (n - (i + 1)), A i (i + 1 + d) * (loop (sorRow A B w n) i (y, 0)).1 (i + 1 + d) =
      ∑ d ∈ range (n - (i + 1)), A i (i + 1 + d) * y (i + 1 + d) := by
    apply sum_congr rfl
    intro d _
    rw [g1 _ (by omega)]
  rw [e2, e3]; ring

/-- How `sorLoop` ends. -/
theorem sorLoop_spec (A : Mat K) (B : Vect K) (w : K) (n : Nat) (convg : K) (fuel k : Nat)
    (x : Vect K) :
    ((sorLoop A B w n convg fuel k x).1 = -1) ∨
    ((k : Int) ≤ (sorLoop A B w n convg fuel k x).1 ∧
      (sorLoop A B w n convg fuel k x).1 < (k : Int) + fuel ∧
      ∃ y, (sorLoop A B w n convg fuel k x).2 = (sorSweep A B w n y).1 ∧
        (sorSweep A B w n y).2 < convg * n) := by
  induction fuel generalizing k x with
  | zero => left; rfl
  | succ fuel ih =>
    rw [sorLoop]
    by_cases h : (sorSweep A B w n x).2 < convg * n
    · right
      simp only [if_pos h]
      exact ⟨le_rfl, by omega, x, rfl, h⟩
    · simp only [if_neg h]
      rcases ih (k + 1) (sorSweep A B w n x).1 with h1 | ⟨h1, h2, h3⟩
      · left; exact h1
      · right; exact ⟨by omega, by omega, h3⟩

/-- **C07 (bounds).** The answer is -1 or a sweep count between 1 and `maxitr - 1`; a count is returned
only if the result is a sweep of some vector that it differs from by less than `tolerance * n` in
total. -/
theorem c07_sor_answer (x : Vect K) (A : Mat K) (B : Vect K) (n : Nat) (w : K) (maxitr : Int)
    (convg : K) :
    (sorSolve x A B n w maxitr convg).1 = -1 ∨
    (1 ≤ (sorSolve x A B n w maxitr convg).1 ∧ (sorSolve x A B n w maxitr convg).1 < maxitr ∧
      ∃ y, IsSweep n A B w y (sorSolve x A B n w maxitr convg).2 ∧
        ∑ i ∈ range n, |(sorSolve x A B n w maxitr convg).2 i - y i| < convg * n) := by
  unfold sorSolve
  rcases sorLoop_spec A B w n convg (maxitr - 1).toNat 1 x with h | ⟨h1, h2, y, h3, h4⟩
  · left; exact h
  · right
    refine ⟨by exact_mod_cast h1, by omega, y, ?_, ?_⟩
    · rw [h3]; exact sorSweep_isSweep A B w n y
    · rw [h3]
      have := (sweep_prefix A B w n y n).2.2
      unfold sorSweep at h4 ⊢
      rw [this] at h4
      exact h4

/-- **C07 (fixed points).** A vector unchanged by a sweep solves the system. -/
theorem c07_sor_fixed_point (A : Mat K) (B : Vect K) (w : K) (n : Nat) (x : Vect K)
    (hd : ∀ i, i < n → A i i ≠ 0) (hw : w ≠ 0) (h : IsSweep n A B w x x) :
    ∀ i, i < n → mulVec n A x i = B i := by
  intro i hi
  have h1 := h i hi
  rw [split_row n i hi (fun j => A i j * x j) (fun j => A i j * x j)] at h1
  have h2 := sor_offdiag A x n i hi
  rw [sorLower_eq, sorUpper_eq] at h2
  rw [h2] at h1
  have hA := hd i hi
  field_simp at h1
  have h3 : w * (B i - mulVec n A x i) = 0 := by linarith
  rcases mul_eq_zero.mp h3 with h4 | h4
  · exact absurd h4 hw
  · exact (sub_eq_zero.mp h4).symm

/-- **C07 (accuracy).** Let the matrix be diagonally dominant with relaxation factor `q < 1`
(`(1-w) a_ii + w Σ_{j≠i} |a_ij| ≤ q a_ii`, `0 ≤ w ≤ 1`).  If SOR reports convergence, its answer
is within `q/(1-q) * tolerance * n` of the exact solution, at every node. -/
theorem c07_sor_accuracy (x z : Vect K) (A : Mat K) (B : Vect K) (n : Nat) (w : K) (maxitr : Int)
    (convg : K) (q : K) (hd : ∀ i, i < n → 0 < A i i)
    (hz : ∀ i, i < n → mulVec n A z i = B i) (hw0 : 0 ≤ w) (hw1 : w ≤ 1) (hq1 : q < 1)
    (hq : ∀ i, i < n → (1 - w) * A i i + w * (∑ j ∈ (range n).erase i, |A i j|) ≤ q * A i i)
    (hr : (sorSolve x A B n w maxitr convg).1 ≠ -1) :
    ∀ i, i < n → |(sorSolve x A B n w maxitr convg).2 i - z i| ≤ q / (1 - q) * (convg * n) := by
  rcases sorLoop_spec A B w n convg (maxitr - 1).toNat 1 x with h | ⟨-, -, y, h3, h4⟩
  · exact absurd h hr
  intro i hi
  have hres : (sorSolve x A B n w maxitr convg).2 = (sorSweep A B w n y).1 := h3
  rw [hres]
  -- the largest error before the last sweep
  obtain ⟨k, hk, hmax⟩ := Finset.exists_max_image (range n) (fun i => |y i - z i|)
    ⟨i, mem_range.mpr hi⟩
  rw [mem_range] at hk
  have hM : 0 ≤ |y k - z k| := abs_nonneg _
  have hc := sweep_contract A B w n y z hd hz hw0 hw1 q _ hq1.le hM hq
    (fun i hi => hmax i (mem_range.mpr hi))
  have hq0 : 0 ≤ q := by
    have h1 := hq i hi
    have h2 : 0 ≤ ∑ j ∈ (range n).erase i, |A i j| := sum_nonneg (fun _ _ => abs_nonneg _)
    have h3 : 0 ≤ q * A i i :=
      le_trans (add_nonneg (mul_nonneg (sub_nonneg.mpr hw1) (hd i hi).le) (mul_nonneg hw0 h2)) h1
    exact nonneg_of_mul_nonneg_left h3 (hd i hi)
  have hdiff : |(sorSweep A B w n y).1 k - y k| ≤ convg * n := by
    have h5 := (sweep_prefix A B w n y n).2.2
    have h6 : |(sorSweep A B w n y).1 k - y k| ≤
        ∑ i ∈ range n, |(sorSweep A B w n y).1 i - y i| :=
      single_le_sum (f := fun i => |(sorSweep A B w n y).1 i - y i|)
        (fun _ _ => abs_nonneg _) (mem_range.mpr hk)
    unfold sorSweep at h4 h6 ⊢
    rw [h5] at h4
    exact h6.trans h4.le
  have hbound : |y k - z k| ≤ convg * n + q * |y k - z k| := by
    calc |y k - z k| = |(y k - (sorSweep A B w n y).1 k) + ((sorSweep A B w n y).1 k - z k)| := by
          congr 1; ring
      _ ≤ |y k - (sorSweep A B w n y).1 k| + |(sorSweep A B w n y).1 k - z k| := abs_add_le _ _
      _ ≤ _ := by rw [abs_sub_comm]; exact add_le_add hdiff (hc k hk)
  have h1q : 0 < 1 - q := by linarith
  have hMle : |y k - z k| ≤ (convg * n) / (1 - q) := by
    rw [le_div_iff₀ h1q]; linarith
  calc |(sorSweep A B w n y).1 i - z i| ≤ q * |y k - z k| := hc i hi
    _ ≤ q * ((convg * n) / (1 - q)) := mul_le_mul_of_nonneg_left hMle hq0
    _ = _ := by ring

/-- **C07 (convergence).** Under the same dominance, with a positive tolerance and enough iterations allowed,
SOR never reports failure, from any starting vector. -/
theorem c07_sor_converges [Archimedean K] (x z : Vect K) (A : Mat K) (B : Vect K) (n : Nat) (w : K)
    (convg : K) (q : K) (hn : 1 ≤ n) (hd : ∀ i, i < n → 0 < A i i)
    (hz : ∀ i, i < n → mulVec n A z i = B i) (hw0 : 0 ≤ w) (hw1 : w ≤ 1) (hq1 : q < 1)
    (hq : ∀ i, i < n → (1 - w) * A i i + w * (∑ j ∈ (range n).erase i, |A i j|) ≤ q * A i i)
    (hc : 0 < convg) :
    ∃ N : Int, ∀ maxitr, N ≤ maxitr → (sorSolve x A B n w maxitr convg).1 ≠ -1 := by
  have hq0 : 0 ≤ q := by
    have h1 := hq 0 hn
    have h2 : 0 ≤ ∑ j ∈ (range n).erase 0, |A 0 j| := sum_nonneg (fun _ _ => abs_nonneg _)
    have h3 : 0 ≤ q * A 0 0 :=
      le_trans (add_nonneg (mul_nonneg (sub_nonneg.mpr hw1) (hd 0 hn).le) (mul_nonneg hw0 h2)) h1
    exact nonneg_of_mul_nonneg_left h3 (hd 0 hn)
  obtain ⟨k0, hk0, hmax⟩ := Finset.exists_max_image (range n) (fun i => |x i - z i|)
    ⟨0, mem_range.mpr hn⟩
  set M := |x k0 - z k0| with hMdef
  have hM : 0 ≤ M := abs_nonneg _
  -- after `m` unsuccessful sweeps the error is at most `q^m M`
  have hloop : ∀ fuel m k y, (∀ i, i < n → |y i - z i| ≤ q ^ m * M) →
      q ^ (m + fuel) * M * 2 < convg → (sorLoop A B w n convg (fuel + 1) k y).1 ≠ -1 := by
    intro fuel
    induction fuel with
    | zero =>
      intro m k y hy hsmall
      rw [sorLoop]
      have hcon := sweep_contract A B w n y z hd hz hw0 hw1 q (q ^ m * M) hq1.le
        (by positivity) hq hy
      have hes : (sorSweep A B w n y).2 < convg * n := by
        have h5 := (sweep_prefix A B w n y n).2.2
        have h6 : (sorSweep A B w n y).2 = ∑ i ∈ range n, |(sorSweep A B w n y).1 i - y i| := h5
        rw [h6]
        calc ∑ i ∈ range n, |(sorSweep A B w n y).1 i - y i|
            ≤ ∑ _i ∈ range n, q ^ m * M * 2 := by
              apply sum_le_sum
              intro i hi
              rw [mem_range] at hi
              have h7 : q * (q ^ m * M) ≤ q ^ m * M := by
                have : 0 ≤ q ^ m * M := by positivity
                nlinarith
              calc |(sorSweep A B w n y).1 i - y i|
                  = |((sorSweep A B w n y).1 i - z i) - (y i - z i)| := by congr 1; ring
                _ ≤ |(sorSweep A B w n y).1 i - z i| + |y i - z i| := abs_sub _ _
                _ ≤ q ^ m * M + q ^ m * M := add_le_add ((hcon i hi).trans h7) (hy i hi)
                _ = _ := by ring
          _ = n * (q ^ m * M * 2) := by rw [sum_const, card_range, nsmul_eq_mul]
          _ < n * convg := by
              have : (0 : K) < n := by exact_mod_cast hn
              exact mul_lt_mul_of_pos_left (by simpa using hsmall) this
          _ = _ := mul_comm _ _
      simp only [if_pos hes]
      omega
    | succ fuel ih =>
      intro m k y hy hsmall
      rw [sorLoop]
      by_cases hes : (sorSweep A B w n y).2 < convg * n
      · simp only [if_pos hes]; omega
      · simp only [if_neg hes]
        apply ih (m + 1) (k + 1)
        · have hcon := sweep_contract A B w n y z hd hz hw0 hw1 q (q ^ m * M) hq1.le
            (by positivity) hq hy
          intro i hi
          have := hcon i hi
          rw [pow_succ]
          calc _ ≤ _ := this
            _ = _ := by ring
        · rw [show m + 1 + fuel = m + (fuel + 1) by omega]; exact hsmall
  obtain ⟨N, hN⟩ := exists_pow_lt_of_lt_one (show (0 : K) < convg / (2 * M + 1) by positivity) hq1
  refine ⟨(N : Int) + 2, fun maxitr hmi => ?_⟩
  unfold sorSolve
  obtain ⟨f, hf⟩ : ∃ f : Nat, (maxitr - 1).toNat = f + 1 ∧ N ≤ f := ⟨(maxitr - 2).toNat, by omega⟩
  rw [hf.1]
  apply hloop f 0 1 x
  · intro i hi
    rw [pow_zero, one_mul]
    exact hmax i (mem_range.mpr hi)
  · rw [zero_add]
    have h1 : q ^ f ≤ q ^ N := pow_le_pow_of_le_one hq0 hq1.le hf.2
    have h2 : q ^ f < convg / (2 * M + 1) := lt_of_le_of_lt h1 hN
    rw [lt_div_iff₀ (by positivity)] at h2
    have h3 : 0 ≤ q ^ f := by positivity
    nlinarith

/-- **C07 (diagonal test).** `isPositiveDefinite` only tests the diagonal: it answers true exactly when
every diagonal term is at least `DBL_EPSILON²`. -/
theorem c07_sor_positive_definite_test (A : Mat K) (n : Nat) :
    sorIsPositiveDefinite A n = true ↔ ∀ i, i < n → (1 / 2 ^ 52 * (1 / 2 ^ 52) : K) ≤ A i i := by
  induction n with
  | zero => simp [sorIsPositiveDefinite]
  | succ n ih =>
    rw [sorIsPositiveDefinite, Bool.and_eq_true, ih]
    have e : (!decide (A n n < sorCondition)) = true ↔
        (1 / 2 ^ 52 * (1 / 2 ^ 52) : K) ≤ A n n := by
      rw [Bool.not_eq_true', decide_eq_false_iff_not, not_lt]; rfl
    rw [e]
    constructor
    · rintro ⟨h1, h2⟩ i hi
      rcases Nat.lt_succ_iff_lt_or_eq.mp hi with h | rfl
      · exact h1 i h
      · exact h2
    · intro h
      exact ⟨fun i hi => h i (by omega), h n (by omega)⟩

/-- Witness: the test accepts a matrix that is not positive definite. -/
theorem c07_sor_test_not_definiteness :
    ∃ A : Mat ℚ, Symm 2 A ∧ sorIsPositiveDefinite A 2 = true ∧ ¬ PosDef 2 A := by
  refine ⟨ofRows [[1, -2], [-2, 1]], ?_, by decide +kernel, ?_⟩
  · intro i j hi hj
    interval_cases i <;> interval_cases j <;> rfl
  · intro hpd
    have := hpd (fun _ => 1) ⟨0, by omega, by simp⟩
    norm_num [quad, sum_range_succ, ofRows] at this

/-- The sample network meets the hypotheses of the convergence theorems with `w = 1`, `q = 4/5`. -/
example : ∃ N : Int, ∀ maxitr, N ≤ maxitr →
    (sorSolve (fun _ => 0) sampleNet (mulVec 4 sampleNet (fun i => (i : ℚ))) 4 1 maxitr
      (1 / 1000)).1 ≠ -1 :=
  c07_sor_converges _ (fun i => (i : ℚ)) _ _ 4 1 (1 / 1000) (4 / 5) (by omega)
    (fun i hi => by interval_cases i <;> norm_num [sampleNet, ofRows])
    (fun _ _ => rfl) (by norm_num) (by norm_num) (by norm_num)
    (fun i hi => by
      interval_cases i <;>
        simp (decide := true) [sampleNet, ofRows, Finset.sum_erase_eq_sub, sum_range_succ] <;>
        norm_num)
    (by norm_num)

end Gunns.Props
