import Mathlib.Tactic.FinCases
import Mathlib.Tactic.LinearCombination
import Verif.Dyn.RigidSchur
import Verif.Dyn.RigidSpec

/-!
# From the model of the state derivative to the equations of motion
-/

set_option linter.unusedSectionVars false

namespace Gunns.Dyn

open Gunns.Spec Finset Matrix

variable {K : Type _} [Field K] [LinearOrder K] [IsStrictOrderedRing K]

theorem cross_eq (a b : Arr K) : toVec 3 (crossV3 a b) = toVec 3 a ⨯₃ toVec 3 b := by
  funext i
  rw [cross_apply]
  fin_cases i <;> simp [toVec, crossV3, arr]

theorem foldl_active {T : Type _} (act : T → Bool) (g : T → Arr K) (l : List T) (z : Arr K) :
    toVec 3 (l.foldl (fun acc t => if act t then addV acc (g t) else acc) z) =
      toVec 3 z + ((l.filter act).map (fun t => toVec 3 (g t))).sum := by
  induction l generalizing z with
  | nil => simp
  | cons t l ih =>
    rw [List.foldl_cons, ih, List.filter_cons]
    cases act t with
    | true =>
      simp only [if_true, List.map_cons, List.sum_cons, ← add_assoc]
      rfl
    | false => rfl

theorem zeroV_vec : toVec 3 (zeroV : Arr K) = 0 := rfl

theorem sumForces_eq (fs : List (Force K)) : toVec 3 (sumAppliedForces fs) = netForce fs := by
  unfold sumAppliedForces netForce
  rw [foldl_active (fun f : Force K => f.active) (fun f => f.force), zeroV_vec, zero_add]

theorem forceTorque_eq (p : MassProps K) (f : Force K) :
    toVec 3 (forceTorque p f) = (toVec 3 f.location - centre p) ⨯₃ toVec 3 f.force := by
  unfold forceTorque
  rw [cross_eq]
  congr 2
  cases h : p.isCmOffset with
  | true => rfl
  | false =>
    obtain ⟨h0, h1, h2⟩ := isCmOffset_false p h
    funext k
    fin_cases k <;> simp [toVec, centre, h0, h1, h2]

theorem sumTorques_eq (p : MassProps K) (fs : List (Force K)) (ts : List (Torque K)) :
    toVec 3 (sumAppliedTorques p fs ts) = netTorque p fs ts := by
  unfold sumAppliedTorques netTorque
  dsimp only
  rw [foldl_active (fun t : Torque K => t.active) (fun t => t.torque),
    foldl_active (fun f : Force K => f.active) (forceTorque p), zeroV_vec, zero_add]
  simp only [forceTorque_eq]

theorem angMomentum_eq (p : MassProps K) (w : Arr K) :
    toVec 3 (angMomentum p w) = inertia p *ᵥ toVec 3 w := by
  funext i
  fin_cases i <;> simp [toVec, angMomentum, arr, inertia, Matrix.mulVec, dotProduct, Fin.sum_univ_three]

theorem source_force (p : MassProps K) (w : Arr K) (fs : List (Force K)) (ts : List (Torque K))
    (k : Fin 3) : rigidSource p w fs ts k =
      netForce fs k - p.mass * (toVec 3 w ⨯₃ (toVec 3 w ⨯₃ centre p)) k := by
  have e1 : ∀ k : Fin 3, toVec 3 (sumAppliedForces fs) k = netForce fs k := fun k => by rw [sumForces_eq]
  have e2 : ∀ k : Fin 3, toVec 3 (crossV3 w (crossV3 w p.cm)) k =
      (toVec 3 w ⨯₃ (toVec 3 w ⨯₃ centre p)) k := fun k => by rw [cross_eq, cross_eq]; rfl
  rw [← e1, ← e2]
  unfold rigidSource
  cases h : p.isCmOffset with
  | true => fin_cases k <;> simp [store, Vect.set, arr, toVec, scaleV, mul_comm]
  | false =>
    obtain ⟨h0, h1, h2⟩ := isCmOffset_false p h
    have : crossV3 w (crossV3 w p.cm) = crossV3 w (crossV3 w zeroV) := by
      simp [crossV3, arr, h0, h1, h2, zeroV]
    rw [this]
    fin_cases k <;> simp [arr, toVec, crossV3, zeroV]

theorem source_torque (p : MassProps K) (w : Arr K) (fs : List (Force K)) (ts : List (Torque K))
    (k : Fin 3) : rigidSource p w fs ts (3 + k) =
      netTorque p fs ts k - (toVec 3 w ⨯₃ (inertia p *ᵥ toVec 3 w)) k := by
  have e1 : ∀ k : Fin 3, toVec 3 (sumAppliedTorques p fs ts) k = netTorque p fs ts k :=
    fun k => by rw [sumTorques_eq]
  have e2 : ∀ k : Fin 3, toVec 3 (crossV3 w (angMomentum p w)) k =
      (toVec 3 w ⨯₃ (inertia p *ᵥ toVec 3 w)) k := fun k => by rw [cross_eq, angMomentum_eq]
  rw [← e1, ← e2]
  unfold rigidSource
  cases h : p.isCmOffset with
  | true => fin_cases k <;> simp [store, Vect.set, arr, toVec]
  | false => fin_cases k <;> simp [arr, toVec]

theorem valid_iff (p : MassProps K) : ValidMass p ↔ p.rejected = false := by
  constructor
  · rintro ⟨h1, h2, h3, h4, h5, h6, h7⟩
    unfold MassProps.rejected
    have e : ∀ x : K, 1 / 2 ^ 52 ≤ x → decide (x < dblEps) = false :=
      fun x hx => decide_eq_false (not_lt.mpr hx)
    have g : ∀ x : K, x ≤ 0 → decide (0 < x) = false := fun x hx => decide_eq_false (not_lt.mpr hx)
    rw [e _ h1, e _ h2, e _ h3, e _ h4, g _ h5, g _ h6, g _ h7]
    rfl
  · exact valid_pos p

theorem noFlush_of (p : MassProps K) (h : MomentsClear p) : NoFlush p := by
  intro j hj
  exact h ⟨j, hj⟩

theorem cmOk_of (p : MassProps K) (h : OffsetOk p) : CmOk p := ⟨h.xy, h.xz, h.yz⟩

theorem rowSums (p : MassProps K) :
    rowSum 6 (massTab p) 0 = p.mass * (1 + centre p 2 - centre p 1) ∧
    rowSum 6 (massTab p) 1 = p.mass * (1 + centre p 0 - centre p 2) ∧
    rowSum 6 (massTab p) 2 = p.mass * (1 + centre p 1 - centre p 0) := by
  refine ⟨?_, ?_, ?_⟩ <;>
    (unfold rowSum; simp [sum_range_succ, massTab, centre, toVec]; ring)

theorem plain_of (p : MassProps K) (hv : p.rejected = false) (h : RowsClear p) : Plain p := by
  obtain ⟨r0, r1, r2⟩ := rowSums p
  obtain ⟨h0, h1, h2⟩ := h
  rw [← r0] at h0
  rw [← r1] at h1
  rw [← r2] at h2
  intro k hk
  interval_cases k
  · exact (condMat_diag p hv 0 (by omega)).2.2 h0
  · exact (condMat_diag p hv 1 (by omega)).2.2 h1
  · exact (condMat_diag p hv 2 (by omega)).2.2 h2

theorem momentRows_of (p : MassProps K) (hv : p.rejected = false) (h : MomentRowsClear p) (a : Nat)
    (ha : a < 3) : condMat p (3 + a) (3 + a) = massTab p (3 + a) (3 + a) := by
  obtain ⟨h0, h1, h2⟩ := h
  apply (condMat_diag p hv (3 + a) (by omega)).2.2
  unfold dblEps
  interval_cases a
  · refine h0.trans_eq (congrArg _ ?_)
    unfold rowSum; simp [sum_range_succ, massTab, centre, toVec]; ring
  · refine h1.trans_eq (congrArg _ ?_)
    unfold rowSum; simp [sum_range_succ, massTab, centre, toVec]; ring
  · refine h2.trans_eq (congrArg _ ?_)
    unfold rowSum; simp [sum_range_succ, massTab, centre, toVec]; ring

theorem cleaned_of (x : K) : Cleaned (cleanV x) x := by
  unfold cleanV Cleaned
  by_cases h : |x| < dblEps
  · rw [if_pos h]; exact Or.inr ⟨rfl, h⟩
  · rw [if_neg h]; exact Or.inl rfl

/-- Columns of the translational rows. -/
theorem col_cross (p : MassProps K) (α : Fin 3 → K) (k : Fin 3) (x : Vect K)
    (hx : ∀ b : Fin 3, x (3 + b) = α b) :
    ∑ b ∈ range 3, condMat p (3 + b) k * x (3 + b) = p.mass * (α ⨯₃ centre p) k := by
  have e0 := hx 0
  have e1 := hx 1
  have e2 := hx 2
  have c : ∀ b, b < 3 → condMat p (3 + b) k = massTab p (3 + b) k := fun b hb =>
    condMat_off p _ _ (by omega) (by have := k.2; omega) (by have := k.2; omega)
  rw [sum_range_succ, sum_range_succ, sum_range_one, c 0 (by omega), c 1 (by omega), c 2 (by omega)]
  simp only [Fin.val_zero, Fin.val_one, Fin.val_two] at e0 e1 e2
  rw [cross_apply, e0, e1, e2]
  fin_cases k <;> simp [massTab, centre, toVec] <;> ring

theorem row_cross (p : MassProps K) (hm : p.mass ≠ 0) (hp : Plain p) (v : Fin 3 → K) (a : Fin 3)
    (w : Vect K) (hw : ∀ k : Fin 3, w k = v k) :
    ∑ k ∈ range 3, condMat p (3 + a) k / condMat p k k * w k = (centre p ⨯₃ v) a := by
  have e0 := hw 0
  have e1 := hw 1
  have e2 := hw 2
  have c : ∀ k, k < 3 → condMat p (3 + a) k / condMat p k k = massTab p (3 + a) k / p.mass := by
    intro k hk
    rw [condMat_off p _ _ (by have := a.2; omega) (by omega) (by omega), hp k hk]
  rw [sum_range_succ, sum_range_succ, sum_range_one, c 0 (by omega), c 1 (by omega), c 2 (by omega)]
  simp only [Fin.val_zero, Fin.val_one, Fin.val_two] at e0 e1 e2
  rw [cross_apply, e0, e1, e2]
  fin_cases a <;> simp [massTab, centre, toVec, neg_div, mul_div_cancel_left₀ _ hm] <;> ring

end Gunns.Dyn
