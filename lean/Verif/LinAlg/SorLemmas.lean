import Verif.LinAlg.Sor
import Verif.LinAlg.SolveLemmas

/-!
# Facts about the SOR sweeps
-/

set_option linter.unusedSectionVars false

namespace Gunns

open Finset Spec

variable {K : Type _} [Field K] [LinearOrder K] [IsStrictOrderedRing K]

theorem sorLower_eq (A : Mat K) (x : Vect K) (i : Nat) :
    sorLower A x i = ∑ j ∈ range i, A i j * x j := by
  unfold sorLower
  generalize hm : i = m
  conv_lhs => rw [← hm]
  rw [← hm]
  have : ∀ m, loop (fun j s => s + A i j * x j) m 0 = ∑ j ∈ range m, A i j * x j := by
    intro m
    induction m with
    | zero => simp
    | succ m ih => rw [loop_succ, ih, sum_range_succ]
  exact this i

theorem sorUpper_eq (A : Mat K) (x : Vect K) (n i : Nat) :
    sorUpper A x n i = ∑ d ∈ range (n - (i + 1)), A i (i + 1 + d) * x (i + 1 + d) := by
  unfold sorUpper
  have : ∀ m, loop (fun d s => s + A i (i + 1 + d) * x (i + 1 + d)) m 0 =
      ∑ d ∈ range m, A i (i + 1 + d) * x (i + 1 + d) := by
    intro m
    induction m with
    | zero => simp
    | succ m ih => rw [loop_succ, ih, sum_range_succ]
  exact this _

/-- Off-diagonal part of row `i` applied to `x`. -/
theorem sor_offdiag (A : Mat K) (x : Vect K) (n i : Nat) (hi : i < n) :
    sorLower A x i + sorUpper A x n i = mulVec n A x i - A i i * x i := by
  rw [sorLower_eq, sorUpper_eq]
  unfold mulVec
  obtain ⟨m, rfl⟩ : ∃ m, n = (i + 1) + m := ⟨n - (i + 1), by omega⟩
  rw [sum_range_add, sum_range_succ, show i + 1 + m - (i + 1) = m by omega]
  ring

/-- Partial sweep: after `m` rows the first `m` terms are new, the others old. -/
theorem sweep_prefix (A : Mat K) (B : Vect K) (w : K) (n : Nat) (x : Vect K) (m : Nat) :
    (∀ i, m ≤ i → (loop (sorRow A B w n) m (x, 0)).1 i = x i) ∧
    (∀ i, i < m → (loop (sorRow A B w n) m (x, 0)).1 i =
      sorTerm A B w n (loop (sorRow A B w n) i (x, 0)).1 i) ∧
    ((loop (sorRow A B w n) m (x, 0)).2 =
      ∑ i ∈ range m, |(loop (sorRow A B w n) m (x, 0)).1 i - x i|) := by
  induction m with
  | zero => simp
  | succ m ih =>
    obtain ⟨h1, h2, h3⟩ := ih
    set s := loop (sorRow A B w n) m (x, 0) with hs
    have hstep : loop (sorRow A B w n) (m + 1) (x, 0) =
        (s.1.set m (sorTerm A B w n s.1 m), s.2 + |sorTerm A B w n s.1 m - s.1 m|) := rfl
    rw [hstep]
    refine ⟨?_, ?_, ?_⟩
    · intro i hi
      show s.1.set m _ i = _
      rw [Vect.set_ne _ _ _ _ (by omega), h1 i (by omega)]
    · intro i hi
      show s.1.set m _ i = _
      rcases Nat.lt_succ_iff_lt_or_eq.mp hi with hlt | rfl
      · rw [Vect.set_ne _ _ _ _ (by omega), h2 i hlt]
      · rw [Vect.set_same]
    · show s.2 + _ = ∑ i ∈ range (m + 1), |s.1.set m _ i - x i|
      rw [sum_range_succ, Vect.set_same, h3, h1 m le_rfl]
      congr 1
      apply sum_congr rfl
      intro i hi
      rw [mem_range] at hi
      rw [Vect.set_ne _ _ _ _ (by omega)]

/-- New and old values around row `i` of a sweep: terms below `i` have their final value. -/
theorem sweep_stable (A : Mat K) (B : Vect K) (w : K) (n : Nat) (x : Vect K) (m i j : Nat)
    (hji : j < i) (him : i ≤ m) :
    (loop (sorRow A B w n) i (x, 0)).1 j = (loop (sorRow A B w n) m (x, 0)).1 j := by
  rw [(sweep_prefix A B w n x i).2.1 j hji, (sweep_prefix A B w n x m).2.1 j (by omega)]

/-- Value of the sweep at row `i` with respect to any exact solution `z`. -/
theorem sweep_error (A : Mat K) (B : Vect K) (w : K) (n : Nat) (x z : Vect K)
    (hd : ∀ i, i < n → A i i ≠ 0) (hz : ∀ i, i < n → mulVec n A z i = B i) (i : Nat) (hi : i < n) :
    (sorSweep A B w n x).1 i - z i =
      (1 - w) * (x i - z i) - w / A i i *
        (∑ j ∈ range i, A i j * ((sorSweep A B w n x).1 j - z j) +
         ∑ d ∈ range (n - (i + 1)), A i (i + 1 + d) * (x (i + 1 + d) - z (i + 1 + d))) := by
  obtain ⟨-, h2, -⟩ := sweep_prefix A B w n x n
  obtain ⟨g1, -, -⟩ := sweep_prefix A B w n x i
  have e1 : (sorSweep A B w n x).1 i = sorTerm A B w n (loop (sorRow A B w n) i (x, 0)).1 i := h2 i hi
  have e2 : sorLower A (loop (sorRow A B w n) i (x, 0)).1 i =
      ∑ j ∈ range i, A i j * (sorSweep A B w n x).1 j := by
    rw [sorLower_eq]
    apply sum_congr rfl
    intro j hj
    rw [mem_range] at hj
    rw [sweep_stable A B w n x n i j hj hi.le]
    rfl
  have e3 : sorUpper A (loop (sorRow A B w n) i (x, 0)).1 n i =
      ∑ d ∈ range (n - (i + 1)), A i (i + 1 + d) * x (i + 1 + d) := by
    rw [sorUpper_eq]
    apply sum_congr rfl
    intro d _
    rw [g1 _ (by omega)]
  have e4 := sor_offdiag A z n i hi
  rw [hz i hi, sorLower_eq, sorUpper_eq] at e4
  have hA := hd i hi
  rw [e1, sorTerm, e2, e3, g1 i le_rfl]
  simp only [mul_sub, sum_sub_distrib]
  have e5 : z i = (B i - (∑ j ∈ range i, A i j * z j +
      ∑ d ∈ range (n - (i + 1)), A i (i + 1 + d) * z (i + 1 + d))) / A i i := by
    rw [e4]; field_simp; ring
  generalize ∑ j ∈ range i, A i j * z j = S1 at *
  generalize ∑ d ∈ range (n - (i + 1)), A i (i + 1 + d) * z (i + 1 + d) = S2 at *
  rw [e5]
  field_simp
  ring

/-- Relative weight of the off-diagonal terms of row `i`. -/
theorem sweep_contract (A : Mat K) (B : Vect K) (w : K) (n : Nat) (x z : Vect K)
    (hd : ∀ i, i < n → 0 < A i i) (hz : ∀ i, i < n → mulVec n A z i = B i)
    (hw0 : 0 ≤ w) (hw1 : w ≤ 1) (q M : K) (hq1 : q ≤ 1) (hM : 0 ≤ M)
    (hq : ∀ i, i < n → (1 - w) * A i i + w * (∑ j ∈ (range n).erase i, |A i j|) ≤ q * A i i)
    (hx : ∀ i, i < n → |x i - z i| ≤ M) :
    ∀ i, i < n → |(sorSweep A B w n x).1 i - z i| ≤ q * M := by
  intro i
  induction i using Nat.strong_induction_on with
  | _ i ih =>
    intro hi
    have hA := hd i hi
    rw [sweep_error A B w n x z (fun i hi => (hd i hi).ne') hz i hi]
    have b1 : |∑ j ∈ range i, A i j * ((sorSweep A B w n x).1 j - z j)| ≤
        (∑ j ∈ range i, |A i j|) * M := by
      rw [sum_mul]
      refine (abs_sum_le_sum_abs _ _).trans (sum_le_sum ?_)
      intro j hj
      rw [mem_range] at hj
      rw [abs_mul]
      apply mul_le_mul_of_nonneg_left _ (abs_nonneg _)
      refine (ih j hj (by omega)).trans ?_
      calc q * M ≤ 1 * M := mul_le_mul_of_nonneg_right hq1 hM
        _ = M := one_mul M
    have b2 : |∑ d ∈ range (n - (i + 1)), A i (i + 1 + d) * (x (i + 1 + d) - z (i + 1 + d))| ≤
        (∑ d ∈ range (n - (i + 1)), |A i (i + 1 + d)|) * M := by
      rw [sum_mul]
      refine (abs_sum_le_sum_abs _ _).trans (sum_le_sum ?_)
      intro d hd'
      rw [mem_range] at hd'
      rw [abs_mul]
      exact mul_le_mul_of_nonneg_left (hx _ (by omega)) (abs_nonneg _)
    have b3 : (∑ j ∈ range i, |A i j|) + (∑ d ∈ range (n - (i + 1)), |A i (i + 1 + d)|) =
        ∑ j ∈ (range n).erase i, |A i j| := by
      have h1 := Finset.add_sum_erase (range n) (fun j => |A i j|) (mem_range.mpr hi)
      have h2 : ∑ j ∈ range n, |A i j| = (∑ j ∈ range i, |A i j|) + |A i i| +
          ∑ d ∈ range (n - (i + 1)), |A i (i + 1 + d)| := by
        obtain ⟨m, hm⟩ : ∃ m, n = (i + 1) + m := ⟨n - (i + 1), by omega⟩
        rw [hm, sum_range_add, sum_range_succ, show i + 1 + m - (i + 1) = m by omega]
      linarith
    set S1 := ∑ j ∈ range i, A i j * ((sorSweep A B w n x).1 j - z j)
    set S2 := ∑ d ∈ range (n - (i + 1)), A i (i + 1 + d) * (x (i + 1 + d) - z (i + 1 + d))
    have hwA : 0 ≤ w / A i i := div_nonneg hw0 hA.le
    have b4 : |S1 + S2| ≤ (∑ j ∈ (range n).erase i, |A i j|) * M := by
      rw [← b3, add_mul]
      exact (abs_add_le _ _).trans (add_le_add b1 b2)
    calc |(1 - w) * (x i - z i) - w / A i i * (S1 + S2)|
        ≤ |(1 - w) * (x i - z i)| + |w / A i i * (S1 + S2)| := abs_sub _ _
      _ = (1 - w) * |x i - z i| + w / A i i * |S1 + S2| := by
          rw [abs_mul, abs_mul, abs_of_nonneg (sub_nonneg.mpr hw1), abs_of_nonneg hwA]
      _ ≤ (1 - w) * M + w / A i i * ((∑ j ∈ (range n).erase i, |A i j|) * M) := by
          apply add_le_add
          · exact mul_le_mul_of_nonneg_left (hx i hi) (sub_nonneg.mpr hw1)
          · exact mul_le_mul_of_nonneg_left b4 hwA
      _ = (((1 - w) * A i i + w * ∑ j ∈ (range n).erase i, |A i j|) / A i i) * M := by
          field_simp
      _ ≤ q * M := by
          apply mul_le_mul_of_nonneg_right _ hM
          rw [div_le_iff₀ hA]
          exact hq i hi

end Gunns
