import Verif.LinAlg.Cholesky
import Mathlib.Algebra.BigOperators.Group.Finset.Basic
import Mathlib.Algebra.BigOperators.Ring.Finset
import Mathlib.Algebra.Order.BigOperators.Ring.Finset
import Mathlib.Tactic.Ring
import Mathlib.Tactic.Linarith
import Mathlib.Tactic.FieldSimp
import Mathlib.Tactic.Positivity

/-!
# Loop characterisation of `Decompose` and its relation to right-looking elimination
-/

set_option linter.unusedSectionVars false

namespace Gunns

open Finset

variable {K : Type _} [Field K] [LinearOrder K]

@[simp] theorem Mat.set_same (A : Mat K) (i j : Nat) (v : K) : A.set i j v i j = v := by
  simp [Mat.set]

theorem Mat.set_ne (A : Mat K) (i j : Nat) (v : K) (a b : Nat) (h : ¬ (a = i ∧ b = j)) :
    A.set i j v a b = A a b := by
  simp [Mat.set, h]

/-- value-level flush -/
def flushV (x : K) : K := if cholLimit < x ∧ x < -cholLimit then 0 else x

/-- value-level product term kept by the sparse short-cut -/
def keepV (a b : K) : K := if a < cholLimit ∧ b < cholLimit then a * b else 0

theorem inner_loop (i j : Nat) (A : Mat K) (m : Nat) (hm : m ≤ j) :
    (∀ a b, ¬ (a = i ∧ b = j) → loop (decomposeInner i j) m A a b = A a b) ∧
    (loop (decomposeInner i j) m A i j = A i j - ∑ k ∈ range m, keepV (A i k) (A j k) ∨ i = j) := by
  by_cases hij : i = j
  · refine ⟨?_, Or.inr hij⟩
    induction m with
    | zero => simp
    | succ m ih =>
      intro a b hab
      have := ih (by omega) a b hab
      rw [loop_succ, decomposeInner]
      split
      · rw [Mat.set_ne _ _ _ _ _ _ hab, this]
      · exact this
  · rw [or_iff_left hij]
    induction m with
    | zero => simp
    | succ m ih =>
      obtain ⟨h1, h2⟩ := ih (by omega)
      have e1 : loop (decomposeInner i j) m A i m = A i m := h1 _ _ (by omega)
      have e2 : loop (decomposeInner i j) m A j m = A j m := h1 _ _ (by omega)
      refine ⟨?_, ?_⟩
      · intro a b hab
        rw [loop_succ, decomposeInner]
        split
        · rw [Mat.set_ne _ _ _ _ _ _ hab, h1 a b hab]
        · exact h1 a b hab
      · rw [loop_succ, decomposeInner, e1, e2, sum_range_succ, keepV]
        split
        · rw [Mat.set_same, h2]; ring
        · rw [h2]; ring

theorem forward_aux (i : Nat) (A : Mat K) (m : Nat) (hm : m ≤ i) :
    let B := loop (fun j A => decomposeFlush i j (loop (decomposeInner i j) j A)) m A
    (∀ a b, ¬ (a = i ∧ b < m) → B a b = A a b) ∧
    (∀ j, j < m → B i j = flushV (A i j - ∑ k ∈ range j, keepV (B i k) (A j k))) := by
  induction m with
  | zero => simp
  | succ m ih =>
    obtain ⟨h1, h2⟩ := ih (by omega)
    set B := loop (fun j A => decomposeFlush i j (loop (decomposeInner i j) j A)) m A with hB
    intro C
    have hC : C = decomposeFlush i m (loop (decomposeInner i m) m B) := rfl
    obtain ⟨g1, g2⟩ := inner_loop i m B m le_rfl
    have hne : i ≠ m := by omega
    rw [or_iff_left hne] at g2
    have hval : C i m = flushV (B i m - ∑ k ∈ range m, keepV (B i k) (B m k)) := by
      rw [hC, decomposeFlush, flushV, ← g2]
      split
      · rw [Mat.set_same]
      · rfl
    have hoth : ∀ a b, ¬ (a = i ∧ b = m) → C a b = B a b := by
      intro a b hab
      rw [hC, decomposeFlush]
      split
      · rw [Mat.set_ne _ _ _ _ _ _ hab, g1 a b hab]
      · exact g1 a b hab
    refine ⟨?_, ?_⟩
    · intro a b hab
      rw [hoth a b (by omega), h1 a b (by omega)]
    · intro j hj
      have hsum : ∀ j, j ≤ m → ∑ k ∈ range j, keepV (C i k) (A j k) =
          ∑ k ∈ range j, keepV (B i k) (A j k) := by
        intro j hj
        apply sum_congr rfl
        intro k hk
        rw [mem_range] at hk
        rw [hoth i k (by omega)]
      rcases Nat.lt_succ_iff_lt_or_eq.mp hj with hlt | rfl
      · rw [hoth i j (by omega), h2 j hlt, hsum j (by omega)]
      · rw [hval, hsum j le_rfl, h1 i j (by omega)]
        congr 2
        apply sum_congr rfl
        intro k hk
        rw [mem_range] at hk
        rw [h1 j k (by omega)]

/-- Effect of the forward loop of one row. -/
theorem forward_spec (i : Nat) (A : Mat K) :
    (∀ a b, ¬ (a = i ∧ b < i) → decomposeForward i A a b = A a b) ∧
    (∀ j, j < i → decomposeForward i A i j =
      flushV (A i j - ∑ k ∈ range j, keepV (decomposeForward i A i k) (A j k))) :=
  forward_aux i A i le_rfl

theorem scale_aux (i : Nat) (A : Mat K) (m : Nat) (hm : m ≤ i) :
    let B := loop (decomposeScaleStep i) m A
    (∀ k, k < m → B i k = A i k / A k k) ∧ (∀ k, k < m → B k i = A i k / A k k) ∧
    (B i i = A i i - ∑ k ∈ range m, A i k * (A i k / A k k)) ∧
    (∀ a b, ¬ (a = i ∧ b < m) → ¬ (a < m ∧ b = i) → ¬ (a = i ∧ b = i) → B a b = A a b) := by
  induction m with
  | zero => simp
  | succ m ih =>
    obtain ⟨h1, h2, h3, h4⟩ := ih (by omega)
    set B := loop (decomposeScaleStep i) m A with hB
    intro C
    have hC : C = decomposeScaleStep i m B := rfl
    have e1 : B i m = A i m := h4 _ _ (by omega) (by omega) (by omega)
    have e2 : B m m = A m m := h4 _ _ (by omega) (by omega) (by omega)
    have hCim : C i m = A i m / A m m := by
      rw [hC, decomposeScaleStep]
      rw [Mat.set_ne _ _ _ _ _ _ (by omega), Mat.set_same, e1, e2]
    have hCmi : C m i = A i m / A m m := by
      rw [hC, decomposeScaleStep]
      rw [Mat.set_same, e1, e2]
    have hCii : C i i = B i i - A i m * (A i m / A m m) := by
      rw [hC, decomposeScaleStep]
      rw [Mat.set_ne _ _ _ _ _ _ (by omega), Mat.set_ne _ _ _ _ _ _ (by omega), Mat.set_same, e1, e2]
    have hoth : ∀ a b, ¬ (a = i ∧ b = m) → ¬ (a = m ∧ b = i) → ¬ (a = i ∧ b = i) → C a b = B a b := by
      intro a b ha hb hc
      rw [hC, decomposeScaleStep]
      rw [Mat.set_ne _ _ _ _ _ _ hb, Mat.set_ne _ _ _ _ _ _ ha, Mat.set_ne _ _ _ _ _ _ hc]
    refine ⟨?_, ?_, ?_, ?_⟩
    · intro k hk
      rcases Nat.lt_succ_iff_lt_or_eq.mp hk with hlt | rfl
      · rw [hoth _ _ (by omega) (by omega) (by omega), h1 k hlt]
      · exact hCim
    · intro k hk
      rcases Nat.lt_succ_iff_lt_or_eq.mp hk with hlt | rfl
      · rw [hoth _ _ (by omega) (by omega) (by omega), h2 k hlt]
      · exact hCmi
    · rw [hCii, h3, sum_range_succ]; ring
    · intro a b ha hb hc
      rw [hoth a b (by omega) (by omega) hc, h4 a b (by omega) (by omega) hc]

/-- Effect of one row of `Decompose`, in terms of the row `p` of unscaled terms. -/
theorem row_spec (i : Nat) (A : Mat K) : ∃ p : Nat → K,
    (∀ j, j < i → p j = flushV (A i j - ∑ k ∈ range j, keepV (p k) (A j k))) ∧
    (∀ k, k < i → decomposeRow i A i k = p k / A k k) ∧
    (∀ k, k < i → decomposeRow i A k i = p k / A k k) ∧
    (decomposeRow i A i i = A i i - ∑ k ∈ range i, p k * (p k / A k k)) ∧
    (∀ a b, ¬ (a = i ∧ b ≤ i) → ¬ (a < i ∧ b = i) → decomposeRow i A a b = A a b) := by
  obtain ⟨f1, f2⟩ := forward_spec i A
  obtain ⟨s1, s2, s3, s4⟩ := scale_aux i (decomposeForward i A) i le_rfl
  have hd : ∀ k, k < i → decomposeForward i A k k = A k k := fun k hk => f1 _ _ (by omega)
  refine ⟨fun k => decomposeForward i A i k, f2, ?_, ?_, ?_, ?_⟩
  · intro k hk; show decomposeScale i _ i k = _; rw [← hd k hk]; exact s1 k hk
  · intro k hk; show decomposeScale i _ k i = _; rw [← hd k hk]; exact s2 k hk
  · show decomposeScale i _ i i = _
    have := s3
    rw [f1 i i (by omega)] at this
    rw [show decomposeScale i (decomposeForward i A) i i = _ from this]
    congr 1
    apply sum_congr rfl
    intro k hk
    rw [mem_range] at hk
    rw [hd k hk]
  · intro a b ha hb
    show decomposeScale i _ a b = _
    rw [show decomposeScale i (decomposeForward i A) a b = _ from
      s4 a b (by omega) (by omega) (by omega)]
    exact f1 a b (by omega)

/-! ### Right-looking elimination with the same short-cuts -/

/-- One elimination step at column `m` of the trailing matrix `S`. -/
def elim (S : Mat K) (m : Nat) : Mat K := fun i j =>
  if i = j then S i i - flushV (S i m) * (flushV (S i m) / S m m)
  else S i j - keepV (flushV (S (max i j) m)) (flushV (S (min i j) m) / S m m)

/-- Trailing matrix after `m` elimination steps. -/
def schur (A : Mat K) : Nat → Mat K
  | 0 => A
  | m + 1 => elim (schur A m) m

/-- Pivot `m`. -/
def piv (A : Mat K) (m : Nat) : K := schur A m m m
/-- Unscaled lower term. -/
def pterm (A : Mat K) (i k : Nat) : K := flushV (schur A k i k)
/-- Scaled lower term. -/
def lterm (A : Mat K) (i k : Nat) : K := pterm A i k / piv A k

theorem schur_offdiag (A : Mat K) (i j : Nat) (h : j < i) (m : Nat) :
    schur A m i j = A i j - ∑ k ∈ range m, keepV (pterm A i k) (lterm A j k) := by
  induction m with
  | zero => simp [schur]
  | succ m ih =>
    rw [schur, elim, if_neg (by omega), sum_range_succ, ih, max_eq_left (by omega),
      min_eq_right (by omega)]
    simp only [pterm, lterm, piv]
    ring

theorem schur_diag (A : Mat K) (i : Nat) (m : Nat) :
    schur A m i i = A i i - ∑ k ∈ range m, pterm A i k * lterm A i k := by
  induction m with
  | zero => simp [schur]
  | succ m ih =>
    rw [schur, elim, if_pos rfl, sum_range_succ, ih]
    simp only [pterm, lterm, piv]
    ring

/-- The matrix `B` holds the factors of the first `m+1` rows. -/
def HoldsFactors (A : Mat K) (m : Nat) (B : Mat K) : Prop :=
  (∀ i, i ≤ m → B i i = piv A i) ∧
  (∀ i k, i ≤ m → k < i → B i k = lterm A i k) ∧
  (∀ i k, i ≤ m → k < i → B k i = lterm A i k) ∧
  (∀ i k, m < i → B i k = A i k) ∧ (∀ i k, m < k → B i k = A i k)

theorem row_step (A : Mat K) (m : Nat) (B : Mat K) (hB : HoldsFactors A m B) :
    HoldsFactors A (m + 1) (decomposeRow (m + 1) B) := by
  obtain ⟨d, l, u, rr, rc⟩ := hB
  obtain ⟨p, hp, r1, r2, r3, r4⟩ := row_spec (m + 1) B
  have hpe : ∀ j, j < m + 1 → p j = pterm A (m + 1) j := by
    intro j
    induction j using Nat.strong_induction_on with
    | _ j ih =>
      intro hj
      rw [hp j hj, pterm, schur_offdiag A (m + 1) j hj, rr (m + 1) j (by omega)]
      congr 2
      apply sum_congr rfl
      intro k hk
      rw [mem_range] at hk
      rw [ih k hk (by omega), l j k (by omega) hk]
  have hdiv : ∀ k, k < m + 1 → p k / B k k = lterm A (m + 1) k := by
    intro k hk
    rw [hpe k hk, d k (by omega), lterm]
  refine ⟨?_, ?_, ?_, ?_, ?_⟩
  · intro i hi
    rcases Nat.lt_or_eq_of_le hi with hlt | rfl
    · rw [r4 i i (by omega) (by omega), d i (by omega)]
    · rw [r3, piv, schur_diag, rr _ _ (by omega)]
      congr 1
      apply sum_congr rfl
      intro k hk
      rw [mem_range] at hk
      rw [hdiv k hk, hpe k hk]
  · intro i k hi hk
    rcases Nat.lt_or_eq_of_le hi with hlt | rfl
    · rw [r4 i k (by omega) (by omega), l i k (by omega) hk]
    · rw [r1 k hk, hdiv k hk]
  · intro i k hi hk
    rcases Nat.lt_or_eq_of_le hi with hlt | rfl
    · rw [r4 k i (by omega) (by omega), u i k (by omega) hk]
    · rw [r2 k hk, hdiv k hk]
  · intro i k hi
    rw [r4 i k (by omega) (by omega), rr i k (by omega)]
  · intro i k hk
    rw [r4 i k (by omega) (by omega), rc i k (by omega)]

theorem holdsFactors_zero (A : Mat K) : HoldsFactors A 0 A :=
  ⟨fun i hi => by obtain rfl : i = 0 := by omega
                  rfl, fun i k hi hk => by omega, fun i k hi hk => by omega,
   fun _ _ _ => rfl, fun _ _ _ => rfl⟩

/-- Outcome of the row loop, in terms of the pivots. -/
theorem decomposeTo_spec (A : Mat K) (m : Nat) :
    (∀ B, decomposeTo A m = .ok B → HoldsFactors A m B ∧
      (∀ i, 1 ≤ i → i ≤ m → 0 < piv A i) ∧ (1 ≤ m → piv A 0 ≠ 0)) ∧
    (∀ i B, decomposeTo A m = .failed i B → 1 ≤ i ∧ i ≤ m ∧ piv A i ≤ 0 ∧ piv A 0 ≠ 0 ∧
      HoldsFactors A i B ∧ ∀ j, 1 ≤ j → j < i → 0 < piv A j) ∧
    (∀ i, decomposeTo A m = .divByZero i → i = 1 ∧ 1 ≤ m ∧ piv A 0 = 0) := by
  induction m with
  | zero =>
    refine ⟨?_, ?_, ?_⟩
    · intro B h
      simp only [decomposeTo, DecompResult.ok.injEq] at h
      subst h
      exact ⟨holdsFactors_zero A, fun i h1 h2 => by omega, fun h => by omega⟩
    · intro i B h; simp [decomposeTo] at h
    · intro i h; simp [decomposeTo] at h
  | succ m ih =>
    obtain ⟨iok, ifail, idiv⟩ := ih
    cases hr : decomposeTo A m with
    | ok B =>
      obtain ⟨hB, hpos, h0⟩ := iok B hr
      have hstep : decomposeTo A (m + 1) = if ∃ k, k < m + 1 ∧ B k k = 0 then .divByZero (m + 1)
          else if decomposeRow (m + 1) B (m + 1) (m + 1) ≤ 0 then
            .failed (m + 1) (decomposeRow (m + 1) B) else .ok (decomposeRow (m + 1) B) := by
        rw [decomposeTo, hr]
      have hH := row_step A m B hB
      have hpv : decomposeRow (m + 1) B (m + 1) (m + 1) = piv A (m + 1) := hH.1 _ le_rfl
      by_cases hz : ∃ k, k < m + 1 ∧ B k k = 0
      · rw [if_pos hz] at hstep
        refine ⟨fun C h => by simp [hstep] at h, fun i C h => by simp [hstep] at h, ?_⟩
        intro i h
        rw [hstep] at h
        simp only [DecompResult.divByZero.injEq] at h
        obtain ⟨k, hk, hkz⟩ := hz
        rw [hB.1 k (by omega)] at hkz
        have hk0 : k = 0 := by
          by_contra hne
          exact (hpos k (by omega) (by omega)).ne' hkz
        subst hk0
        have hm : m = 0 := by
          by_contra hne
          exact h0 (by omega) hkz
        subst hm
        exact ⟨h.symm, by omega, hkz⟩
      · rw [if_neg hz] at hstep
        have hp0 : piv A 0 ≠ 0 := by
          intro he
          exact hz ⟨0, by omega, by rw [hB.1 0 (by omega)]; exact he⟩
        by_cases hle : decomposeRow (m + 1) B (m + 1) (m + 1) ≤ 0
        · rw [if_pos hle] at hstep
          refine ⟨fun C h => by simp [hstep] at h, ?_, fun i h => by simp [hstep] at h⟩
          intro i C h
          rw [hstep] at h
          simp only [DecompResult.failed.injEq] at h
          obtain ⟨rfl, rfl⟩ := h
          exact ⟨by omega, le_rfl, hpv ▸ hle, hp0, hH, fun j h1 h2 => hpos j h1 (by omega)⟩
        · rw [if_neg hle] at hstep
          refine ⟨?_, fun i C h => by simp [hstep] at h, fun i h => by simp [hstep] at h⟩
          intro C h
          rw [hstep] at h
          simp only [DecompResult.ok.injEq] at h
          subst h
          refine ⟨hH, ?_, fun _ => hp0⟩
          intro i h1 h2
          rcases Nat.lt_or_eq_of_le h2 with hlt | rfl
          · exact hpos i h1 (by omega)
          · rw [← hpv]; exact not_le.mp hle
    | failed i B =>
      have hstep : decomposeTo A (m + 1) = .failed i B := by rw [decomposeTo, hr]
      obtain ⟨a, b, c⟩ := ifail i B hr
      refine ⟨fun C h => by simp [hstep] at h, ?_, fun i h => by simp [hstep] at h⟩
      intro i' C h
      rw [hstep] at h
      simp only [DecompResult.failed.injEq] at h
      obtain ⟨rfl, rfl⟩ := h
      exact ⟨a, by omega, c⟩
    | divByZero i =>
      have hstep : decomposeTo A (m + 1) = .divByZero i := by rw [decomposeTo, hr]
      obtain ⟨a, b, c⟩ := idiv i hr
      refine ⟨fun C h => by simp [hstep] at h, fun i C h => by simp [hstep] at h, ?_⟩
      intro i' h
      rw [hstep] at h
      simp only [DecompResult.divByZero.injEq] at h
      subst h
      exact ⟨a, by omega, c⟩

end Gunns
