import Verif.Dyn.RigidLemmas

/-!
# The equations that a call of the state derivative solves
-/

set_option linter.unusedSectionVars false

namespace Gunns.Dyn

open Gunns.Spec Finset Matrix

variable {K : Type _} [Field K] [LinearOrder K] [IsStrictOrderedRing K]

/-- States that calls of `update` reach from the initialised object without a numerical exception. -/
inductive Reach : Deriv K → Prop where
  | init : Reach Deriv.init
  | ok {d d' : Deriv K} (i : DerivInput K) : Reach d → d.update i = .ok d' → Reach d'
  | invalid {d d' : Deriv K} (i : DerivInput K) : Reach d → d.update i = .invalid d' → Reach d'

theorem update_invalid (i : DerivInput K) (d : Deriv K) (h : i.props.rejected = true) :
    d.update i = .invalid d := by
  unfold Deriv.update
  rw [h]
  rfl

theorem update_cases (i : DerivInput K) (d : Deriv K) (h : Inv d) :
    (i.props.rejected = true ∧ d.update i = .invalid d) ∨
    (i.props.rejected = false ∧ (∃ B, decompose (condMat i.props) 6 = .ok B) ∧
      ∃ d', d.update i = .ok d' ∧ Inv d') ∨
    (i.props.rejected = false ∧ (∀ B, decompose (condMat i.props) 6 ≠ .ok B) ∧
      ∃ d', d.update i = .numeric d') := by
  cases hr : i.props.rejected with
  | true => exact Or.inl ⟨rfl, update_invalid i d hr⟩
  | false =>
    right
    by_cases hB : ∃ B, decompose (condMat i.props) 6 = .ok B
    · obtain ⟨B, hB⟩ := hB
      obtain ⟨d', x, h1, h2, -⟩ := update_ok i d h hr B hB
      exact Or.inl ⟨rfl, ⟨B, hB⟩, d', h1, h2⟩
    · push Not at hB
      obtain ⟨d', L, r, src, h1, -⟩ := update_numeric i d h hr hB
      exact Or.inr ⟨rfl, hB, d', h1⟩

theorem reach_inv {d : Deriv K} (h : Reach d) : Inv d := by
  induction h with
  | init => exact inv_init
  | ok i _ hu ih =>
    rcases update_cases i _ ih with ⟨-, h⟩ | ⟨-, -, d'', h, hi⟩ | ⟨-, -, d'', h⟩
    · rw [h] at hu; cases hu
    · rw [h] at hu; cases hu; exact hi
    · rw [h] at hu; cases hu
  | invalid i _ hu ih =>
    rcases update_cases i _ ih with ⟨-, h⟩ | ⟨-, -, d'', h, hi⟩ | ⟨-, -, d'', h⟩
    · rw [h] at hu; cases hu; exact ih
    · rw [h] at hu; cases hu
    · rw [h] at hu; cases hu

/-- The matrix that acts on the angular acceleration. -/
def rotMat (p : MassProps K) (B : Mat K) : Matrix (Fin 3) (Fin 3) K :=
  fun a b => ldlt 3 (rotFactors p B) a b

theorem mulVec_fin (M : Mat K) (x : Vect K) (a : Nat) :
    Spec.mulVec 3 M x a = ∑ b : Fin 3, M a b * x b := by
  unfold Spec.mulVec
  rw [Fin.sum_univ_three, sum_range_succ, sum_range_succ, sum_range_one]
  rfl

theorem update_equations (i : DerivInput K) (d d' : Deriv K) (h : Inv d) (hf : NoFlush i.props)
    (hu : d.update i = .ok d') :
    ∃ B, decompose (condMat i.props) 6 = .ok B ∧ i.props.rejected = false ∧
    ∃ a α : Fin 3 → K, (∀ k : Fin 3, Cleaned (d'.acc k) (a k)) ∧
      (∀ k : Fin 3, Cleaned (d'.angAcc k) (α k)) ∧
      (∀ k : Fin 3, condMat i.props k k * a k + i.props.mass * (α ⨯₃ centre i.props) k =
        netForce i.forces k -
          i.props.mass * (toVec 3 i.angVel ⨯₃ (toVec 3 i.angVel ⨯₃ centre i.props)) k) ∧
      (Plain i.props → rotMat i.props B *ᵥ α + toVec 3 i.angVel ⨯₃ (inertia i.props *ᵥ toVec 3 i.angVel) =
        netTorque i.props i.forces i.torques - centre i.props ⨯₃ (netForce i.forces -
          i.props.mass • (toVec 3 i.angVel ⨯₃ (toVec 3 i.angVel ⨯₃ centre i.props)))) := by
  rcases update_cases i d h with ⟨-, g⟩ | ⟨hr, ⟨B, hB⟩, d'', g, -⟩ | ⟨-, -, d'', g⟩
  · rw [g] at hu; cases hu
  · obtain ⟨e, x, h1, -, h3, h4, -, -⟩ := update_ok i d h hr B hB
    rw [hu] at h1
    cases h1
    obtain ⟨r1, r2⟩ := solution_rows i.props hf hr B hB _ _ x h3
    refine ⟨B, hB, hr, fun k => x k, fun k => x (3 + k), ?_, ?_, ?_, ?_⟩
    · intro k
      rw [(h4 k k.2).1]
      exact cleaned_of _
    · intro k
      rw [(h4 k k.2).2]
      exact cleaned_of _
    · intro k
      rw [← col_cross i.props (fun k : Fin 3 => x (3 + k)) k x (fun _ => rfl), r1 k k.2,
        buildSource_rigid _ _ _ (by have := k.2; omega), source_force]
    · intro hp
      funext a
      have hm : i.props.mass ≠ 0 := (dblEps_pos.trans_le (valid_pos _ hr).1).ne'
      have e1 := r2 a a.2
      rw [row_cross i.props hm hp (netForce i.forces -
          i.props.mass • (toVec 3 i.angVel ⨯₃ (toVec 3 i.angVel ⨯₃ centre i.props))) a _ (by
            intro k
            rw [buildSource_rigid _ _ _ (by have := k.2; omega), source_force]
            rfl), buildSource_rigid _ _ _ (by have := a.2; omega), source_torque, mulVec_fin] at e1
      simp only [Pi.add_apply, Pi.sub_apply]
      rw [show (rotMat i.props B *ᵥ fun k : Fin 3 => x (3 + k)) a =
        ∑ b : Fin 3, ldlt 3 (rotFactors i.props B) a b * x (3 + b) from rfl, e1]
      ring
  · rw [g] at hu; cases hu

theorem inertia_tab (p : MassProps K) (a b : Fin 3) : inertiaTab p a b = inertia p a b := by
  fin_cases a <;> fin_cases b <;> rfl

theorem rotBlock_facts (p : MassProps K) (hr : p.rejected = false) (hf : NoFlush p) (hp : Plain p)
    (hc : CmOk p) (hpos : InertiaPos p) :
    OffDiagNonpos 3 (rotBlock p) ∧ PosDef 3 (rotBlock p) := by
  obtain ⟨-, -, -, -, o1, o2, o3⟩ := valid_pos p hr
  have off : ∀ a b, a < 3 → b < 3 → a ≠ b → rotBlock p a b = inertiaTab p a b := by
    intro a b ha hb hab
    rcases Nat.lt_or_gt_of_ne hab with h | h
    · rw [rotBlock_symm p a b ha hb, rotBlock_off p hf hr hp hc b a hb h]
      interval_cases a <;> interval_cases b <;> rfl
    · exact rotBlock_off p hf hr hp hc a b ha h
  constructor
  · intro a b ha hb hab
    rw [off a b ha hb hab]
    interval_cases a <;> interval_cases b <;> first | exact absurd rfl hab | assumption
  · intro x ⟨i0, hi0, hx0⟩
    have h1 := hpos (fun k : Fin 3 => x k) (by
      intro h
      exact hx0 (congrFun h ⟨i0, hi0⟩))
    refine h1.trans_le ?_
    have key : ∀ a, a < 3 → inertiaTab p a a ≤ rotBlock p a a := by
      intro a ha
      rw [rotBlock_diag p hf hr hp a ha]
      have := (condMat_diag p hr (3 + a) (by omega)).1
      linarith
    have k0 := mul_le_mul_of_nonneg_left (key 0 (by omega)) (mul_self_nonneg (x 0))
    have k1 := mul_le_mul_of_nonneg_left (key 1 (by omega)) (mul_self_nonneg (x 1))
    have k2 := mul_le_mul_of_nonneg_left (key 2 (by omega)) (mul_self_nonneg (x 2))
    unfold quad
    simp only [sum_range_succ, sum_range_zero, dotProduct, Matrix.mulVec, Fin.sum_univ_three,
      ← inertia_tab]
    rw [off 0 1 (by omega) (by omega) (by omega), off 0 2 (by omega) (by omega) (by omega),
      off 1 0 (by omega) (by omega) (by omega), off 1 2 (by omega) (by omega) (by omega),
      off 2 0 (by omega) (by omega) (by omega), off 2 1 (by omega) (by omega) (by omega)]
    simp only [Fin.val_zero, Fin.val_one, Fin.val_two]
    linarith

theorem decompose_exists (p : MassProps K) (hr : p.rejected = false) (hf : NoFlush p) (hp : Plain p)
    (hc : CmOk p) (hpos : InertiaPos p) : ∃ B, decompose (condMat p) 6 = .ok B := by
  obtain ⟨h1, h2⟩ := rotBlock_facts p hr hf hp hc hpos
  obtain ⟨B, hB, -⟩ := decompose_ok_of_piv (n := 6) (A := condMat p) (by
    intro k hk
    by_cases h3 : k < 3
    · rw [piv_low p k h3, hp k h3]
      exact dblEps_pos.trans_le (valid_pos p hr).1
    · obtain ⟨a, rfl⟩ : ∃ a, k = 3 + a := ⟨k - 3, by omega⟩
      rw [piv_rot]
      exact piv_pos_of_posDef (rotBlock_symm p) h1 h2 a (by omega))
  exact ⟨B, hB⟩

theorem rotMat_facts (p : MassProps K) (hr : p.rejected = false) (hf : NoFlush p) (hp : Plain p)
    (hc : CmOk p) (hpos : InertiaPos p) (B : Mat K) (hB : decompose (condMat p) 6 = .ok B) :
    (rotMat p B).transpose = rotMat p B ∧
    (∀ a : Fin 3, rotMat p B a a = inertia p a a +
      (condMat p (3 + a) (3 + a) - massTab p (3 + a) (3 + a))) ∧
    (∀ a b : Fin 3, a ≠ b → 0 ≤ rotMat p B a b - inertia p a b ∧
      rotMat p B a b - inertia p a b ≤ 1 / 10 ^ 100 * (1 + |p.ixz| + |p.ixy| / p.ixx)) ∧
    (p.ixy = 0 → p.ixz = 0 → p.iyz = 0 → ∀ a b : Fin 3, a ≠ b → rotMat p B a b = 0) := by
  obtain ⟨h1, h2⟩ := rotBlock_facts p hr hf hp hc hpos
  have hpp : ∀ k, k < 3 → 0 < piv (rotBlock p) k :=
    fun k hk => piv_pos_of_posDef (rotBlock_symm p) h1 h2 k hk
  have hh := rotFactors_holds p B (decomposed_diag p hr B hB).1
  have hoff : ∀ a b, a < 3 → b < a → rotBlock p a b = inertiaTab p a b :=
    fun a b ha hb => rotBlock_off p hf hr hp hc a b ha hb
  have hx : 0 < p.ixx := dblEps_pos.trans_le (valid_pos p hr).2.1
  have hp00 : p.ixx ≤ piv (rotBlock p) 0 := by
    show p.ixx ≤ rotBlock p 0 0
    rw [rotBlock_diag p hf hr hp 0 (by omega)]
    have := (condMat_diag p hr (3 + 0) (by omega)).1
    show p.ixx ≤ p.ixx + _
    linarith
  have hbound : 0 ≤ |p.ixz| + |p.ixy| / p.ixx := add_nonneg (abs_nonneg _) (div_nonneg (abs_nonneg _) hx.le)
  have hfl : ∀ x : K, |flushV x| ≤ |x| := by
    intro x
    unfold flushV
    split
    · rw [abs_zero]; exact abs_nonneg x
    · exact le_rfl
  have hlow : ∀ a b : Fin 3, b < a → 0 ≤ rotMat p B a b - inertia p a b ∧
      rotMat p B a b - inertia p a b ≤ 1 / 10 ^ 100 * (1 + |p.ixz| + |p.ixy| / p.ixx) := by
    intro a b hab
    have te := term_error h1 hh hpp (i := a) (j := b) hab a.2
    rw [hoff a b a.2 hab, inertia_tab] at te
    refine ⟨te.1, te.2.trans ?_⟩
    rw [show (-cholLimit : K) = 1 / 10 ^ 100 by unfold cholLimit; ring]
    apply mul_le_mul_of_nonneg_left _ (by positivity)
    rw [add_assoc]
    apply add_le_add_right
    have hb : (b : Nat) = 0 ∨ ((b : Nat) = 1 ∧ (a : Nat) = 2) := by
      have := a.2
      have : (b : Nat) < a := hab
      omega
    rcases hb with hb | ⟨hb, ha⟩
    · rw [hb, sum_range_zero]; exact hbound
    · rw [hb, ha, sum_range_one]
      apply add_le_add
      · rw [hh.2.1 2 0 (by omega) (by omega), hh.1 0 (by omega), lterm,
          div_mul_cancel₀ _ (hpp 0 (by omega)).ne']
        refine (hfl _).trans (le_of_eq ?_)
        show |rotBlock p 2 0| = _
        rw [hoff 2 0 (by omega) (by omega)]
        rfl
      · rw [hh.2.1 1 0 (by omega) (by omega), lterm, abs_div, abs_of_pos (hpp 0 (by omega))]
        apply div_le_div₀ (abs_nonneg _) _ hx hp00
        refine (hfl _).trans (le_of_eq ?_)
        show |rotBlock p 1 0| = _
        rw [hoff 1 0 (by omega) (by omega)]
        rfl
  have hsym : ∀ a b : Fin 3, rotMat p B a b = rotMat p B b a := fun a b => ldlt_comm 3 _ a b
  have hisym : ∀ a b : Fin 3, inertia p a b = inertia p b a := by
    intro a b; fin_cases a <;> fin_cases b <;> rfl
  refine ⟨?_, ?_, ?_, ?_⟩
  · ext a b; exact hsym b a
  · intro a
    show ldlt 3 (rotFactors p B) a a = _
    rw [diag_exact hh (fun k hk => (hpp k hk).ne') a.2, rotBlock_diag p hf hr hp a a.2, inertia_tab]
  · intro a b hab
    rcases lt_or_gt_of_ne hab with h | h
    · rw [hsym a b, hisym a b]
      exact hlow b a h
    · exact hlow a b h
  · intro z1 z2 z3
    have hz : ∀ b a, a < 3 → b < a → pterm (rotBlock p) a b = 0 := by
      intro b
      induction b using Nat.strong_induction_on with
      | _ b ih =>
        intro a ha hb
        rw [pterm, schur_offdiag _ _ _ hb, hoff a b ha hb, sum_eq_zero, sub_zero]
        · have : inertiaTab p a b = 0 := by
            interval_cases a <;> interval_cases b <;> assumption
          rw [this]; exact flushV_zero
        · intro r hr
          rw [mem_range] at hr
          rw [ih r hr a ha (by omega), keepV_zero_left]
    have hl : ∀ a b : Fin 3, b < a → rotMat p B a b = 0 := by
      intro a b hab
      show ldlt 3 (rotFactors p B) a b = 0
      have hz' : ∀ k, k < (a : Nat) → rotFactors p B a k = 0 := by
        intro k hk
        have := a.2
        rw [hh.2.1 a k (by omega) hk, lterm, hz k a a.2 hk, zero_div]
      rw [ldlt_lower 3 _ a b hab a.2, hz' b hab, sum_eq_zero]
      · ring
      · intro k hk
        rw [mem_range] at hk
        have : (b : Nat) < a := hab
        rw [hz' k (by omega)]
        ring
    intro a b hab
    rcases lt_or_gt_of_ne hab with h | h
    · rw [hsym a b]; exact hl b a h
    · exact hl a b h

end Gunns.Dyn
