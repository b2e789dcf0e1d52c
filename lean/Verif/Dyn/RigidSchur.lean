import Verif.Dyn.RigidRun

/-!
# The rotational block of the decomposed mass matrix
-/

set_option linter.unusedSectionVars false

namespace Gunns.Dyn

open Gunns.Spec Finset

variable {K : Type _} [Field K] [LinearOrder K] [IsStrictOrderedRing K]

theorem flushV_id (x : K) (h : x = 0 ∨ 1 / 10 ^ 100 ≤ |x|) : flushV x = x := by
  rcases h with rfl | h
  · exact flushV_zero
  · unfold flushV
    rw [if_neg]
    rintro ⟨h1, h2⟩
    exact absurd (abs_lt.mpr (by simpa [cholLimit] using And.intro h1 h2)) (not_lt.mpr h)

theorem schur_shift (A : Mat K) (m k i j : Nat) :
    schur A (m + k) (m + i) (m + j) = schur (fun a b => schur A m (m + a) (m + b)) k i j := by
  induction k generalizing i j with
  | zero => rfl
  | succ k ih =>
    rw [← Nat.add_assoc]
    simp only [schur, elim]
    rw [Nat.add_max_add_left, Nat.add_min_add_left]
    simp only [ih, Nat.add_left_cancel_iff]

theorem schur_symm {n : Nat} {A : Mat K} (h : Symm n A) (m : Nat) : Symm n (schur A m) := by
  induction m with
  | zero => exact h
  | succ m ih =>
    intro i j hi hj
    by_cases hij : i = j
    · rw [hij]
    · simp only [schur, elim, if_neg hij, if_neg (Ne.symm hij), ih i j hi hj, max_comm i j,
        min_comm i j]

/-- No moment of mass is so small that the decomposition flushes it. -/
def NoFlush (p : MassProps K) : Prop :=
  ∀ j, j < 3 → p.mass * p.cm j = 0 ∨ 1 / 10 ^ 100 ≤ |p.mass * p.cm j|

theorem low_entry (p : MassProps K) (h : NoFlush p) (i k : Nat) (hi : i < 6) (hk : k < 3)
    (hki : k < i) : flushV (condMat p i k) = condMat p i k := by
  apply flushV_id
  rw [condMat_off p i k hi (by omega) (by omega)]
  have h0 := h 0 (by omega)
  have h1 := h 1 (by omega)
  have h2 := h 2 (by omega)
  interval_cases k <;> interval_cases i <;> simp only [massTab, List.getD_cons_zero,
    List.getD_cons_succ, neg_eq_zero, abs_neg, true_or] <;> assumption

theorem low_zero (p : MassProps K) (i k : Nat) (hi : i < 3) (hk : k < 3) (hki : i ≠ k) :
    condMat p i k = 0 := by
  rw [condMat_off p i k (by omega) (by omega) (by omega)]
  interval_cases k <;> interval_cases i <;> first | rfl | exact absurd rfl hki

theorem pterm_low (p : MassProps K) (l k : Nat) (hk : k < 3) (hl : l < k) :
    pterm (condMat p) k l = 0 := by
  induction l using Nat.strong_induction_on with
  | _ l ih =>
    rw [pterm, schur_offdiag _ _ _ hl, low_zero p k l hk (by omega) (by omega), sum_eq_zero]
    · rw [sub_zero]; exact flushV_zero
    · intro r hr
      rw [mem_range] at hr
      rw [ih r hr (by omega), keepV_zero_left]

theorem pterm_col (p : MassProps K) (h : NoFlush p) (i k : Nat) (hi : i < 6) (hk : k < 3)
    (hki : k < i) : pterm (condMat p) i k = condMat p i k := by
  rw [pterm, schur_offdiag _ _ _ hki, sum_eq_zero, sub_zero, low_entry p h i k hi hk hki]
  intro r hr
  rw [mem_range] at hr
  rw [lterm, pterm_low p r k hk hr, zero_div, keepV_zero_right]

theorem piv_low (p : MassProps K) (k : Nat) (hk : k < 3) :
    piv (condMat p) k = condMat p k k := by
  rw [piv, schur_diag, sum_eq_zero, sub_zero]
  intro r hr
  rw [mem_range] at hr
  rw [pterm_low p r k hk hr, zero_mul]

/-- The rotational block when the mass rows are eliminated. -/
def rotBlock (p : MassProps K) : Mat K := fun a b => schur (condMat p) 3 (3 + a) (3 + b)

theorem rotBlock_symm (p : MassProps K) : Symm 3 (rotBlock p) := by
  intro a b ha hb
  exact schur_symm (condMat_symm p) 3 (3 + a) (3 + b) (by omega) (by omega)

theorem piv_rot (p : MassProps K) (a : Nat) : piv (condMat p) (3 + a) = piv (rotBlock p) a := by
  unfold piv rotBlock
  exact schur_shift (condMat p) 3 a a a

theorem lterm_rot (p : MassProps K) (a b : Nat) :
    lterm (condMat p) (3 + a) (3 + b) = lterm (rotBlock p) a b := by
  unfold lterm pterm
  rw [piv_rot, schur_shift]
  rfl

/-- The factors of the rotational block. -/
def rotFactors (p : MassProps K) (B : Mat K) : Mat K := fun a b =>
  if a < 3 ∧ b < 3 then B (3 + a) (3 + b) else rotBlock p a b

theorem rotFactors_holds (p : MassProps K) (B : Mat K) (hB : HoldsFactors (condMat p) 5 B) :
    HoldsFactors (rotBlock p) 2 (rotFactors p B) := by
  obtain ⟨d, l, u, -, -⟩ := hB
  refine ⟨?_, ?_, ?_, ?_, ?_⟩
  · intro a ha
    rw [rotFactors, if_pos ⟨by omega, by omega⟩, d _ (by omega), piv_rot]
  · intro a b ha hb
    rw [rotFactors, if_pos ⟨by omega, by omega⟩, l _ _ (by omega) (by omega), lterm_rot]
  · intro a b ha hb
    rw [rotFactors, if_pos ⟨by omega, by omega⟩, u _ _ (by omega) (by omega), lterm_rot]
  · intro a b ha
    rw [rotFactors, if_neg (by omega)]
  · intro a b ha
    rw [rotFactors, if_neg (by omega)]

/-- The six equations that the solution satisfies. -/
theorem solution_rows (p : MassProps K) (hf : NoFlush p) (hr : p.rejected = false) (B : Mat K)
    (hB : decompose (condMat p) 6 = .ok B) (w x0 x : Vect K) (hx : solve B w x0 6 = .ok x) :
    (∀ k, k < 3 → condMat p k k * x k +
      ∑ b ∈ range 3, condMat p (3 + b) k * x (3 + b) = w k) ∧
    (∀ a, a < 3 → mulVec 3 (ldlt 3 (rotFactors p B)) (fun b => x (3 + b)) a = w (3 + a) -
      ∑ k ∈ range 3, condMat p (3 + a) k / condMat p k k * w k) := by
  obtain ⟨hh, hp⟩ := decomposed_diag p hr B hB
  have hrot := rotFactors_holds p B hh
  obtain ⟨d, l, u, -, -⟩ := hh
  have hu : UpperIsLower 6 B := fun i k hi hk => by
    rw [u i k (by omega) hk, l i k (by omega) hk]
  have hu' : UpperIsLower 3 (rotFactors p B) := fun i k hi hk => by
    rw [hrot.2.2.1 i k (by omega) hk, hrot.2.1 i k (by omega) hk]
  have hs := Props.c04_solve_correct hu hx
  have hBlow : ∀ i k, i < 6 → k < 3 → k < i → B i k = condMat p i k / condMat p k k := by
    intro i k hi hk hki
    rw [l i k (by omega) hki, lterm, pterm_col p hf i k hi hk hki, piv_low p k hk]
  have hc0 : ∀ k, k < 3 → condMat p k k ≠ 0 := by
    intro k hk
    rw [← piv_low p k hk]
    exact (hp k (by omega)).1.ne'
  -- the intermediate vector
  have hy1 : ∀ k, k < 3 → B k k * mulVec 6 (unitUpper B) x k = condMat p k k * x k +
      ∑ b ∈ range 3, condMat p (3 + b) k * x (3 + b) := by
    intro k hk
    have hBk : B k k = condMat p k k := by rw [d k (by omega), piv_low p k hk]
    unfold mulVec
    rw [show (6 : Nat) = 3 + 3 from rfl, sum_range_add, mul_add, mul_sum, mul_sum]
    congr 1
    · rw [sum_eq_single k]
      · rw [hBk]; simp [unitUpper]
      · intro j hj hjk
        rw [mem_range] at hj
        unfold unitUpper
        by_cases hlt : k < j
        · rw [if_pos hlt, hu j k (by omega) hlt, hBlow j k (by omega) hk hlt,
            low_zero p j k hj hk hjk]
          simp
        · rw [if_neg hlt, if_neg (Ne.symm hjk)]
          simp
      · intro hk'
        exact absurd (mem_range.mpr hk) hk'
    · apply sum_congr rfl
      intro b hb
      rw [mem_range] at hb
      unfold unitUpper
      rw [if_pos (by omega), hu (3 + b) k (by omega) (by omega),
        hBlow (3 + b) k (by omega) hk (by omega), hBk]
      have := hc0 k hk
      field_simp
  have hy2 : ∀ a, a < 3 → B (3 + a) (3 + a) * mulVec 6 (unitUpper B) x (3 + a) =
      rotFactors p B a a * mulVec 3 (unitUpper (rotFactors p B)) (fun b => x (3 + b)) a := by
    intro a ha
    rw [rotFactors, if_pos ⟨ha, ha⟩]
    congr 1
    unfold mulVec
    rw [show (6 : Nat) = 3 + 3 from rfl, sum_range_add]
    rw [sum_eq_zero, zero_add]
    · apply sum_congr rfl
      intro b hb
      rw [mem_range] at hb
      simp only [unitUpper, rotFactors, ha, hb, and_self, if_true, Nat.add_lt_add_iff_left,
        Nat.add_left_cancel_iff]
    · intro k hk
      rw [mem_range] at hk
      unfold unitUpper
      rw [if_neg (by omega), if_neg (by omega), zero_mul]
  have hlow : ∀ k, k < 3 → B k k * mulVec 6 (unitUpper B) x k = w k := by
    intro k hk
    rw [← hs k (by omega), mulVec_ldlt 6 B hu x k, mulVec_unitLower 6 B _ k (by omega)]
    rw [sum_eq_zero, add_zero]
    intro j hj
    rw [mem_range] at hj
    rw [hBlow k j (by omega) (by omega) hj, low_zero p k j hk (by omega) (by omega)]
    simp
  refine ⟨fun k hk => by rw [← hy1 k hk, hlow k hk], ?_⟩
  intro a ha
  have h1 := hs (3 + a) (by omega)
  rw [mulVec_ldlt 6 B hu x (3 + a)] at h1
  rw [mulVec_ldlt 3 _ hu' _ a, ← h1]
  unfold mulVec
  rw [show (6 : Nat) = 3 + 3 from rfl, sum_range_add, eq_sub_iff_add_eq, add_comm]
  congr 1
  · apply sum_congr rfl
    intro k hk
    rw [mem_range] at hk
    have := hlow k hk
    unfold mulVec at this
    beta_reduce
    rw [show (3 + 3 : Nat) = 6 from rfl, this]
    unfold unitLower
    rw [if_pos (by omega), hBlow (3 + a) k (by omega) hk (by omega)]
  · apply sum_congr rfl
    intro b hb
    rw [mem_range] at hb
    have := hy2 b hb
    unfold mulVec at this
    beta_reduce
    rw [show (3 + 3 : Nat) = 6 from rfl, this]
    simp only [unitLower, rotFactors, ha, hb, and_self, if_true, Nat.add_lt_add_iff_left,
        Nat.add_left_cancel_iff]

/-! ### Entries of the rotational block -/

/-- The moments of inertia as a table. -/
def inertiaTab (p : MassProps K) : Mat K := fun i j =>
  ([[p.ixx, p.ixy, p.ixz], [p.ixy, p.iyy, p.iyz], [p.ixz, p.iyz, p.izz]].getD i []).getD j 0

/-- The offset of the centre of mass is one for which the decomposition keeps the products it needs. -/
structure CmOk (p : MassProps K) : Prop where
  xy : p.cm 0 * p.cm 1 = 0 ∨ (1 / 10 ^ 100 < p.mass * p.cm 0 ∧ 1 / 10 ^ 100 < - p.cm 1)
  xz : p.cm 0 * p.cm 2 = 0 ∨ (1 / 10 ^ 100 < - (p.mass * p.cm 0) ∧ 1 / 10 ^ 100 < p.cm 2)
  yz : p.cm 1 * p.cm 2 = 0 ∨ (1 / 10 ^ 100 < p.mass * p.cm 1 ∧ 1 / 10 ^ 100 < - p.cm 2)

/-- The translational rows are left alone by the conditioning. -/
def Plain (p : MassProps K) : Prop := ∀ k, k < 3 → condMat p k k = p.mass

theorem rotBlock_diag (p : MassProps K) (hf : NoFlush p) (hr : p.rejected = false) (hp : Plain p)
    (a : Nat) (ha : a < 3) : rotBlock p a a =
      inertiaTab p a a + (condMat p (3 + a) (3 + a) - massTab p (3 + a) (3 + a)) := by
  have hm : p.mass ≠ 0 := (dblEps_pos.trans_le (valid_pos p hr).1).ne'
  have e : ∀ k, k < 3 → pterm (condMat p) (3 + a) k * lterm (condMat p) (3 + a) k =
      massTab p (3 + a) k * massTab p (3 + a) k / p.mass := by
    intro k hk
    rw [lterm, pterm_col p hf _ k (by omega) hk (by omega), piv_low p k hk, hp k hk,
      condMat_off p _ k (by omega) (by omega) (by omega), mul_div_assoc]
  rw [rotBlock, schur_diag, sum_range_succ, sum_range_succ, sum_range_one, e 0 (by omega),
    e 1 (by omega), e 2 (by omega)]
  generalize condMat p (3 + a) (3 + a) = c
  interval_cases a <;> simp only [massTab, inertiaTab, List.getD_cons_zero, List.getD_cons_succ,
    Nat.reduceAdd] <;> field_simp <;> ring

theorem rotBlock_off (p : MassProps K) (hf : NoFlush p) (hr : p.rejected = false) (hp : Plain p)
    (hc : CmOk p) (a b : Nat) (ha : a < 3) (hb : b < a) : rotBlock p a b = inertiaTab p a b := by
  have hm0 : 0 < p.mass := dblEps_pos.trans_le (valid_pos p hr).1
  have hm : p.mass ≠ 0 := hm0.ne'
  have e : ∀ k, k < 3 → keepV (pterm (condMat p) (3 + a) k) (lterm (condMat p) (3 + b) k) =
      keepV (massTab p (3 + a) k) (massTab p (3 + b) k / p.mass) := by
    intro k hk
    rw [lterm, pterm_col p hf _ k (by omega) hk (by omega), pterm_col p hf _ k (by omega) hk (by omega),
      piv_low p k hk, hp k hk, condMat_off p _ k (by omega) (by omega) (by omega),
      condMat_off p _ k (by omega) (by omega) (by omega)]
  have key : ∀ u v : K, u * v = 0 ∨ (1 / 10 ^ 100 < - u ∧ 1 / 10 ^ 100 < - v) →
      keepV u v = u * v := by
    intro u v h
    unfold keepV
    rcases h with h | ⟨h1, h2⟩
    · rw [h]; split <;> rfl
    · rw [if_pos]
      constructor <;> unfold cholLimit <;> linarith
  rw [rotBlock, schur_offdiag _ _ _ (by omega), sum_range_succ, sum_range_succ, sum_range_one,
    e 0 (by omega), e 1 (by omega), e 2 (by omega),
    condMat_off p _ _ (by omega) (by omega) (by omega)]
  interval_cases a
  · omega
  · interval_cases b
    simp only [massTab, inertiaTab, List.getD_cons_zero, List.getD_cons_succ, Nat.reduceAdd,
      zero_div, keepV_zero_left, keepV_zero_right, mul_div_cancel_left₀ _ hm]
    rw [key]
    · ring
    · rcases hc.xy with h | ⟨h1, h2⟩
      · left; linear_combination -p.mass * h
      · right; exact ⟨by linarith, h2⟩
  · interval_cases b
    · simp only [massTab, inertiaTab, List.getD_cons_zero, List.getD_cons_succ, Nat.reduceAdd,
        zero_div, keepV_zero_left, keepV_zero_right, neg_div, mul_div_cancel_left₀ _ hm]
      rw [key]
      · ring
      · rcases hc.xz with h | ⟨h1, h2⟩
        · left; linear_combination -p.mass * h
        · right; exact ⟨by linarith, by linarith⟩
    · simp only [massTab, inertiaTab, List.getD_cons_zero, List.getD_cons_succ, Nat.reduceAdd,
        zero_div, keepV_zero_left, keepV_zero_right, neg_div, mul_div_cancel_left₀ _ hm]
      rw [key]
      · ring
      · rcases hc.yz with h | ⟨h1, h2⟩
        · left; linear_combination -p.mass * h
        · right; exact ⟨by linarith, by linarith⟩

end Gunns.Dyn
