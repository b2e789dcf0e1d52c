import Verif.LinAlg.CholeskySolve
import Verif.LinAlg.CholeskyFacts
import Mathlib.Algebra.BigOperators.Intervals

/-!
# Loop characterisation of `Solve`
-/

set_option linter.unusedSectionVars false

namespace Gunns

open Finset Spec

variable {K : Type _} [Field K] [LinearOrder K]

@[simp] theorem Vect.set_same (x : Vect K) (i : Nat) (v : K) : x.set i v i = v := by simp [Vect.set]

theorem Vect.set_ne (x : Vect K) (i : Nat) (v : K) (a : Nat) (h : a ≠ i) : x.set i v a = x a := by
  simp [Vect.set, h]

theorem lower_inner_loop (L : Mat K) (k m : Nat) (hm : m ≤ k) (x : Vect K) :
    (loop (lowerInner L k) m x k = x k - ∑ i ∈ range m, x i * L k i) ∧
    (∀ a, a ≠ k → loop (lowerInner L k) m x a = x a) := by
  induction m with
  | zero => simp
  | succ m ih =>
    obtain ⟨h1, h2⟩ := ih (by omega)
    rw [loop_succ]
    refine ⟨?_, ?_⟩
    · rw [lowerInner, Vect.set_same, h1, h2 m (by omega), sum_range_succ]; ring
    · intro a ha
      rw [lowerInner, Vect.set_ne _ _ _ _ ha, h2 a ha]

/-- Forward substitution. -/
theorem solveUnitLower_spec (L : Mat K) (B x : Vect K) (n : Nat) (k : Nat) (hk : k < n) :
    solveUnitLower L B x n k = B k - ∑ i ∈ range k, solveUnitLower L B x n i * L k i := by
  have main : ∀ m, ∀ k, k ≤ m →
      let y := loop (fun kk x => loop (lowerInner L (kk + 1)) (kk + 1)
        (x.set (kk + 1) (B (kk + 1)))) m (x.set 0 (B 0))
      y k = B k - ∑ i ∈ range k, y i * L k i := by
    intro m
    induction m with
    | zero =>
      intro k hk
      obtain rfl : k = 0 := by omega
      simp
    | succ m ih =>
      intro k hk
      set y := loop (fun kk x => loop (lowerInner L (kk + 1)) (kk + 1)
        (x.set (kk + 1) (B (kk + 1)))) m (x.set 0 (B 0)) with hy
      intro z
      have hz : z = loop (lowerInner L (m + 1)) (m + 1) (y.set (m + 1) (B (m + 1))) := rfl
      obtain ⟨h1, h2⟩ := lower_inner_loop L (m + 1) (m + 1) le_rfl (y.set (m + 1) (B (m + 1)))
      rw [← hz] at h1 h2
      have hoth : ∀ a, a ≠ m + 1 → z a = y a := by
        intro a ha
        rw [h2 a ha, Vect.set_ne _ _ _ _ ha]
      rcases Nat.lt_or_eq_of_le hk with hlt | rfl
      · rw [hoth k (by omega), show y k = _ from ih k (by omega)]
        congr 1
        apply sum_congr rfl
        intro i hi
        rw [mem_range] at hi
        rw [hoth i (by omega)]
      · rw [h1, Vect.set_same]
        congr 1
        apply sum_congr rfl
        intro i hi
        rw [mem_range] at hi
        rw [hoth i (by omega), Vect.set_ne _ _ _ _ (by omega)]
  exact main (n - 1) k (by omega)

theorem upper_inner_loop (U : Mat K) (k m : Nat) (x : Vect K) :
    (loop (upperInner U k) m x k = x k - ∑ d ∈ range m, x (k + 1 + d) * U k (k + 1 + d)) ∧
    (∀ a, a ≠ k → loop (upperInner U k) m x a = x a) := by
  induction m with
  | zero => simp
  | succ m ih =>
    obtain ⟨h1, h2⟩ := ih
    rw [loop_succ]
    refine ⟨?_, ?_⟩
    · rw [upperInner, Vect.set_same, h1, h2 _ (by omega), sum_range_succ]; ring
    · intro a ha
      rw [upperInner, Vect.set_ne _ _ _ _ ha, h2 a ha]

/-- Backward substitution in place. -/
theorem solveUnitUpper_spec (U : Mat K) (x : Vect K) (n : Nat) (k : Nat) (hk : k < n) :
    solveUnitUpperInPlace U x n k =
      x k - ∑ d ∈ range (n - 1 - k), solveUnitUpperInPlace U x n (k + 1 + d) * U k (k + 1 + d) := by
  have main : ∀ m, m ≤ n - 1 →
      let y := loop (fun c x => loop (upperInner U (n - 2 - c)) (n - 1 - (n - 2 - c))
        (x.set (n - 2 - c) (x (n - 2 - c)))) m (x.set (n - 1) (x (n - 1)))
      (∀ k, k < n → n - 1 ≤ k + m →
        y k = x k - ∑ d ∈ range (n - 1 - k), y (k + 1 + d) * U k (k + 1 + d)) ∧
      (∀ k, k + m < n - 1 → y k = x k) := by
    intro m
    induction m with
    | zero =>
      intro _
      refine ⟨?_, ?_⟩
      · intro k hk hkm
        obtain rfl : k = n - 1 := by omega
        simp
      · intro k hk
        rw [loop_zero, Vect.set_ne _ _ _ _ (by omega)]
    | succ m ih =>
      intro hm
      obtain ⟨g1, g2⟩ := ih (by omega)
      set y := loop (fun c x => loop (upperInner U (n - 2 - c)) (n - 1 - (n - 2 - c))
        (x.set (n - 2 - c) (x (n - 2 - c)))) m (x.set (n - 1) (x (n - 1))) with hy
      intro z
      have hz : z = loop (upperInner U (n - 2 - m)) (n - 1 - (n - 2 - m))
        (y.set (n - 2 - m) (y (n - 2 - m))) := rfl
      obtain ⟨h1, h2⟩ := upper_inner_loop U (n - 2 - m) (n - 1 - (n - 2 - m))
        (y.set (n - 2 - m) (y (n - 2 - m)))
      rw [← hz] at h1 h2
      have hoth : ∀ a, a ≠ n - 2 - m → z a = y a := by
        intro a ha
        rw [h2 a ha, Vect.set_ne _ _ _ _ ha]
      refine ⟨?_, ?_⟩
      · intro k hk hkm
        by_cases hkq : k = n - 2 - m
        · subst hkq
          rw [h1, Vect.set_same, g2 _ (by omega)]
          congr 1
          apply sum_congr rfl
          intro d _
          rw [hoth _ (by omega), Vect.set_ne _ _ _ _ (by omega)]
        · rw [hoth k hkq, g1 k hk (by omega)]
          congr 1
          apply sum_congr rfl
          intro d _
          rw [hoth _ (by omega)]
      · intro k hk
        rw [hoth k (by omega), g2 k (by omega)]
  exact (main (n - 1) le_rfl).1 k hk (by omega)

theorem solveScale_spec (LDU : Mat K) (x : Vect K) (n : Nat) :
    (∀ y, solveScale LDU x n = .ok y → (∀ k, k < n → LDU k k ≠ 0 ∧ y k = x k / LDU k k) ∧
      ∀ k, n ≤ k → y k = x k) ∧
    (∀ r y, solveScale LDU x n = .failed r y → r < n ∧ LDU r r = 0 ∧ ∀ k, k < r → LDU k k ≠ 0) ∧
    solveScale LDU x n ≠ .outOfBounds := by
  induction n with
  | zero =>
    refine ⟨?_, ?_, ?_⟩
    · intro y h
      simp only [solveScale, SolveResult.ok.injEq] at h
      subst h
      exact ⟨fun k hk => by omega, fun _ _ => rfl⟩
    · intro r y h; simp [solveScale] at h
    · simp [solveScale]
  | succ n ih =>
    obtain ⟨i1, i2, i3⟩ := ih
    rw [solveScale]
    cases hr : solveScale LDU x n with
    | ok y =>
      obtain ⟨g1, g2⟩ := i1 y hr
      by_cases hz : LDU n n = 0
      · simp only [if_pos hz]
        refine ⟨by simp, ?_, by simp⟩
        intro r z h
        simp only [SolveResult.failed.injEq] at h
        obtain ⟨rfl, rfl⟩ := h
        exact ⟨by omega, hz, fun k hk => (g1 k hk).1⟩
      · simp only [if_neg hz]
        refine ⟨?_, by simp, by simp⟩
        intro z h
        simp only [SolveResult.ok.injEq] at h
        subst h
        refine ⟨?_, ?_⟩
        · intro k hk
          rcases Nat.lt_succ_iff_lt_or_eq.mp hk with hlt | rfl
          · rw [Vect.set_ne _ _ _ _ (by omega)]; exact g1 k hlt
          · rw [Vect.set_same, g2 k le_rfl]; exact ⟨hz, rfl⟩
        · intro k hk
          rw [Vect.set_ne _ _ _ _ (by omega), g2 k (by omega)]
    | failed r y =>
      obtain ⟨a, b, c⟩ := i2 r y hr
      refine ⟨by simp, ?_, by simp⟩
      intro r' z h
      simp only [SolveResult.failed.injEq] at h
      obtain ⟨rfl, rfl⟩ := h
      exact ⟨by omega, b, c⟩
    | outOfBounds => exact absurd hr i3

/-- Unit upper triangular matrix stored strictly above the diagonal. -/
def unitUpper (B : Mat K) (k j : Nat) : K := if k < j then B k j else if k = j then 1 else 0

theorem mulVec_unitLower (n : Nat) (L : Mat K) (y : Vect K) (k : Nat) (hk : k < n) :
    mulVec n (unitLower L) y k = y k + ∑ i ∈ range k, y i * L k i := by
  unfold mulVec
  rw [← sum_subset (s₁ := range (k + 1)) (range_subset_range.mpr (by omega))]
  · rw [sum_range_succ, add_comm]
    congr 1
    · simp [unitLower]
    · apply sum_congr rfl
      intro i hi
      rw [mem_range] at hi
      simp [unitLower, hi, mul_comm]
  · intro i _ hi
    rw [mem_range, not_lt] at hi
    unfold unitLower
    rw [if_neg (by omega), if_neg (by omega), zero_mul]

theorem mulVec_unitUpper (n : Nat) (U : Mat K) (y : Vect K) (k : Nat) (hk : k < n) :
    mulVec n (unitUpper U) y k =
      y k + ∑ d ∈ range (n - 1 - k), y (k + 1 + d) * U k (k + 1 + d) := by
  unfold mulVec
  obtain ⟨m, rfl⟩ : ∃ m, n = (k + 1) + m := ⟨n - (k + 1), by omega⟩
  rw [sum_range_add, sum_range_succ]
  rw [sum_eq_zero]
  · rw [zero_add]
    congr 1
    · simp [unitUpper]
    · rw [show k + 1 + m - 1 - k = m by omega]
      apply sum_congr rfl
      intro d _
      unfold unitUpper
      rw [if_pos (by omega), mul_comm]
  · intro i hi
    rw [mem_range] at hi
    unfold unitUpper
    rw [if_neg (by omega), if_neg (by omega), zero_mul]

/-- With a stored `Lᵀ` above the diagonal, `LDLᵀ` applied to a vector is `L (D (Lᵀ x))`. -/
theorem mulVec_ldlt (n : Nat) (B : Mat K) (hu : UpperIsLower n B) (x : Vect K) (i : Nat) :
    mulVec n (ldlt n B) x i =
      mulVec n (unitLower B) (fun k => B k k * mulVec n (unitUpper B) x k) i := by
  unfold mulVec ldlt
  have h1 : ∀ j ∈ range n, (∑ k ∈ range n, unitLower B i k * B k k * unitLower B j k) * x j =
      ∑ k ∈ range n, unitLower B i k * (B k k * (unitUpper B k j * x j)) := by
    intro j hj
    rw [mem_range] at hj
    rw [sum_mul]
    apply sum_congr rfl
    intro k _
    have : unitLower B j k = unitUpper B k j := by
      unfold unitLower unitUpper
      by_cases hkj : k < j
      · rw [if_pos hkj, if_pos hkj, hu j k hj hkj]
      · rw [if_neg hkj, if_neg hkj]
    rw [this]; ring
  rw [sum_congr rfl h1, sum_comm]
  apply sum_congr rfl
  intro k _
  dsimp only
  rw [mul_sum, mul_sum]

theorem unitLower_inj (n : Nat) (L : Mat K) (y z : Vect K)
    (h : ∀ k, k < n → mulVec n (unitLower L) y k = mulVec n (unitLower L) z k) :
    ∀ k, k < n → y k = z k := by
  intro k
  induction k using Nat.strong_induction_on with
  | _ k ih =>
    intro hk
    have := h k hk
    rw [mulVec_unitLower n L y k hk, mulVec_unitLower n L z k hk] at this
    have hs : ∑ i ∈ range k, y i * L k i = ∑ i ∈ range k, z i * L k i := by
      apply sum_congr rfl
      intro i hi
      rw [mem_range] at hi
      rw [ih i hi (by omega)]
    rw [hs] at this
    exact add_right_cancel this

theorem unitUpper_inj (n : Nat) (U : Mat K) (y z : Vect K)
    (h : ∀ k, k < n → mulVec n (unitUpper U) y k = mulVec n (unitUpper U) z k) :
    ∀ k, k < n → y k = z k := by
  have main : ∀ m k, k < n → n - 1 - k = m → y k = z k := by
    intro m
    induction m using Nat.strong_induction_on with
    | _ m ih =>
      intro k hk hm
      have := h k hk
      rw [mulVec_unitUpper n U y k hk, mulVec_unitUpper n U z k hk] at this
      have hs : ∑ d ∈ range (n - 1 - k), y (k + 1 + d) * U k (k + 1 + d) =
          ∑ d ∈ range (n - 1 - k), z (k + 1 + d) * U k (k + 1 + d) := by
        apply sum_congr rfl
        intro d hd
        rw [mem_range] at hd
        rw [ih (n - 1 - (k + 1 + d)) (by omega) _ (by omega) rfl]
      rw [hs] at this
      exact add_right_cancel this
  exact fun k hk => main _ k hk rfl

/-- What `Solve` computes. -/
theorem solve_spec (B : Mat K) (b x0 : Vect K) (n : Nat) (hn : n ≠ 0) :
    (∀ x, solve B b x0 n = .ok x → (∀ k, k < n → B k k ≠ 0) ∧
      (∀ k, k < n → B k k * mulVec n (unitUpper B) x k = solveUnitLower B b x0 n k)) ∧
    (∀ r x, solve B b x0 n = .failed r x → r < n ∧ B r r = 0 ∧ ∀ k, k < r → B k k ≠ 0) ∧
    solve B b x0 n ≠ .outOfBounds := by
  obtain ⟨s1, s2, s3⟩ := solveScale_spec B (solveUnitLower B b x0 n) n
  unfold solve
  rw [if_neg hn]
  cases hr : solveScale B (solveUnitLower B b x0 n) n with
  | ok y =>
    refine ⟨?_, by simp, by simp⟩
    intro x h
    simp only [SolveResult.ok.injEq] at h
    subst h
    obtain ⟨g, -⟩ := s1 y hr
    refine ⟨fun k hk => (g k hk).1, ?_⟩
    intro k hk
    rw [mulVec_unitUpper n B _ k hk]
    have := solveUnitUpper_spec B y n k hk
    rw [this, sub_add_cancel, (g k hk).2, mul_div_cancel₀ _ (g k hk).1]
  | failed r y =>
    refine ⟨by simp, ?_, by simp⟩
    intro r' x h
    simp only [SolveResult.failed.injEq] at h
    obtain ⟨rfl, rfl⟩ := h
    exact s2 r y hr
  | outOfBounds => exact absurd hr s3

theorem lower_solves (B : Mat K) (b x0 : Vect K) (n : Nat) (k : Nat) (hk : k < n) :
    mulVec n (unitLower B) (solveUnitLower B b x0 n) k = b k := by
  rw [mulVec_unitLower n B _ k hk]
  conv_lhs => rw [solveUnitLower_spec B b x0 n k hk]
  rw [sub_add_cancel]

end Gunns
