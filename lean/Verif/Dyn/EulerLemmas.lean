import Mathlib.Tactic.LinearCombination
import Mathlib.Tactic.FinCases
import Mathlib.Tactic.Ring
import Mathlib.Tactic.Linarith
import Mathlib.Tactic.NormNum
import Verif.Dyn.Spec

set_option linter.unusedSectionVars false

namespace Gunns.Dyn

open Matrix

@[simp] theorem arr_zero {K : Type _} [Zero K] (a : K) (l : List K) : arr (a :: l) 0 = a := rfl
@[simp] theorem arr_one {K : Type _} [Zero K] (a b : K) (l : List K) :
    arr (a :: b :: l) 1 = b := rfl
@[simp] theorem arr_two {K : Type _} [Zero K] (a b c : K) (l : List K) :
    arr (a :: b :: c :: l) 2 = c := rfl
@[simp] theorem arr_three {K : Type _} [Zero K] (a b c d : K) (l : List K) :
    arr (a :: b :: c :: d :: l) 3 = d := rfl

/-! ## Loops are sums -/

section sums

variable {K : Type _} [CommRing K]

theorem loop_sum (f : Nat → K) (n : Nat) (s : K) :
    loop (fun i acc => acc + f i) n s = s + ∑ i : Fin n, f i := by
  induction n with
  | zero => simp
  | succ n ih => rw [loop_succ, ih, Fin.sum_univ_castSucc]; simp [add_assoc]

theorem multiplyMV_eq (m v : Arr K) (n : Nat) :
    toVec n (multiplyMV m v n) = (toMat n m).mulVec (toVec n v) := by
  funext i
  rw [toVec, multiplyMV, loop_sum]
  simp [Matrix.mulVec, dotProduct, toMat, toVec]

theorem multiplyMtV_eq (m v : Arr K) (n : Nat) :
    toVec n (multiplyMtV m v n) = (toMat n m)ᵀ.mulVec (toVec n v) := by
  funext i
  rw [toVec, multiplyMtV, loop_sum]
  simp [Matrix.mulVec, dotProduct, toMat, toVec]

theorem multiplyMM_eq (a b : Arr K) (n : Nat) :
    toMat n (multiplyMM a b n) = toMat n a * toMat n b := by
  funext i j
  rw [toMat, multiplyMM, loop_sum, Matrix.mul_apply]
  have hn : 0 < n := lt_of_le_of_lt (Nat.zero_le _) i.2
  have h1 : ((i : Nat) * n + j) / n = i := by
    rw [Nat.add_comm, Nat.add_mul_div_right _ _ hn, Nat.div_eq_of_lt j.2, Nat.zero_add]
  have h2 : ((i : Nat) * n + j) % n = j := by
    rw [Nat.add_comm, Nat.add_mul_mod_self_right, Nat.mod_eq_of_lt j.2]
  simp only [h1, h2, toMat, zero_add]

theorem dotV_eq (a b : Arr K) (n : Nat) : dotV a b n = toVec n a ⬝ᵥ toVec n b := by
  rw [dotV, loop_sum]
  simp [dotProduct, toVec]

theorem crossV3_eq (a b : Arr K) :
    toVec 3 (crossV3 a b) = (toMat 3 (skew a)).mulVec (toVec 3 b) := by
  funext i
  fin_cases i <;>
    simp [toVec, toMat, crossV3, skew, arr, Matrix.mulVec, dotProduct, Fin.sum_univ_three] <;> ring

/-! ## The transformation matrix -/

theorem qtoM_mat (q : Arr K) : toMat 3 (qtoM q) =
    !![qtoMElement q 0, qtoMElement q 1, qtoMElement q 2;
       qtoMElement q 3, qtoMElement q 4, qtoMElement q 5;
       qtoMElement q 6, qtoMElement q 7, qtoMElement q 8] := by
  funext i j
  fin_cases i <;> fin_cases j <;> rfl

theorem qtoM_orth (q : Arr K) (h : UnitQ q) : toMat 3 (qtoM q) * (toMat 3 (qtoM q))ᵀ = 1 := by
  unfold UnitQ at h
  have h0 : q 0 ^ 2 = 1 - q 1 ^ 2 - q 2 ^ 2 - q 3 ^ 2 := by linear_combination h
  rw [qtoM_mat]
  funext i j
  fin_cases i <;> fin_cases j <;>
    simp [Matrix.mul_apply, Fin.sum_univ_three, qtoMElement] <;> ring_nf <;> simp only [h0] <;> ring

theorem qtoM_det (q : Arr K) (h : UnitQ q) : (toMat 3 (qtoM q)).det = 1 := by
  unfold UnitQ at h
  have h0 : q 0 ^ 2 = 1 - q 1 ^ 2 - q 2 ^ 2 - q 3 ^ 2 := by linear_combination h
  rw [qtoM_mat, Matrix.det_fin_three]
  simp [qtoMElement]
  ring_nf
  simp only [h0]
  ring

/-- Cofactors of a transformation matrix are its elements. -/
theorem qtoM_cofactors (q : Arr K) (h : UnitQ q) :
    qtoMElement q 0 = qtoMElement q 4 * qtoMElement q 8 - qtoMElement q 5 * qtoMElement q 7 ∧
    qtoMElement q 1 = qtoMElement q 5 * qtoMElement q 6 - qtoMElement q 3 * qtoMElement q 8 ∧
    qtoMElement q 2 = qtoMElement q 3 * qtoMElement q 7 - qtoMElement q 4 * qtoMElement q 6 ∧
    qtoMElement q 3 = qtoMElement q 2 * qtoMElement q 7 - qtoMElement q 1 * qtoMElement q 8 ∧
    qtoMElement q 4 = qtoMElement q 0 * qtoMElement q 8 - qtoMElement q 2 * qtoMElement q 6 ∧
    qtoMElement q 5 = qtoMElement q 1 * qtoMElement q 6 - qtoMElement q 0 * qtoMElement q 7 ∧
    qtoMElement q 6 = qtoMElement q 1 * qtoMElement q 5 - qtoMElement q 2 * qtoMElement q 4 ∧
    qtoMElement q 7 = qtoMElement q 2 * qtoMElement q 3 - qtoMElement q 0 * qtoMElement q 5 ∧
    qtoMElement q 8 = qtoMElement q 0 * qtoMElement q 4 - qtoMElement q 1 * qtoMElement q 3 := by
  unfold UnitQ at h
  have e0 : qtoMElement q 0 = q 0 ^ 2 + q 1 ^ 2 - q 2 ^ 2 - q 3 ^ 2 := by
    simp only [qtoMElement]; linear_combination -h
  have e4 : qtoMElement q 4 = q 0 ^ 2 - q 1 ^ 2 + q 2 ^ 2 - q 3 ^ 2 := by
    simp only [qtoMElement]; linear_combination -h
  have e8 : qtoMElement q 8 = q 0 ^ 2 - q 1 ^ 2 - q 2 ^ 2 + q 3 ^ 2 := by
    simp only [qtoMElement]; linear_combination -h
  rw [e0, e4, e8]
  simp only [qtoMElement]
  refine ⟨?_, ?_, ?_, ?_, ?_, ?_, ?_, ?_, ?_⟩
  · linear_combination (-(q 0 ^ 2 + q 1 ^ 2 - q 2 ^ 2 - q 3 ^ 2)) * h
  · linear_combination (-(2 * (q 1 * q 2 - q 0 * q 3))) * h
  · linear_combination (-(2 * (q 1 * q 3 + q 0 * q 2))) * h
  · linear_combination (-(2 * (q 1 * q 2 + q 0 * q 3))) * h
  · linear_combination (-(q 0 ^ 2 - q 1 ^ 2 + q 2 ^ 2 - q 3 ^ 2)) * h
  · linear_combination (-(2 * (q 2 * q 3 - q 0 * q 1))) * h
  · linear_combination (-(2 * (q 1 * q 3 - q 0 * q 2))) * h
  · linear_combination (-(2 * (q 2 * q 3 + q 0 * q 1))) * h
  · linear_combination (-(q 0 ^ 2 - q 1 ^ 2 - q 2 ^ 2 + q 3 ^ 2)) * h

/-- The rows and columns of a transformation matrix have length one. -/
theorem qtoM_lengths (q : Arr K) (h : UnitQ q) :
    qtoMElement q 0 ^ 2 + qtoMElement q 1 ^ 2 + qtoMElement q 2 ^ 2 = 1 ∧
    qtoMElement q 3 ^ 2 + qtoMElement q 4 ^ 2 + qtoMElement q 5 ^ 2 = 1 ∧
    qtoMElement q 6 ^ 2 + qtoMElement q 7 ^ 2 + qtoMElement q 8 ^ 2 = 1 ∧
    qtoMElement q 0 ^ 2 + qtoMElement q 3 ^ 2 + qtoMElement q 6 ^ 2 = 1 ∧
    qtoMElement q 1 ^ 2 + qtoMElement q 4 ^ 2 + qtoMElement q 7 ^ 2 = 1 ∧
    qtoMElement q 2 ^ 2 + qtoMElement q 5 ^ 2 + qtoMElement q 8 ^ 2 = 1 := by
  unfold UnitQ at h
  have h0 : q 0 ^ 2 = 1 - q 1 ^ 2 - q 2 ^ 2 - q 3 ^ 2 := by linear_combination h
  simp only [qtoMElement]
  refine ⟨?_, ?_, ?_, ?_, ?_, ?_⟩ <;> ring_nf <;> simp only [h0] <;> ring

end sums

/-! ## Hamilton quaternions -/

section quaternion

variable {K : Type _} [CommRing K]

@[simp] theorem toQuat_re (q : Arr K) : (toQuat q).re = q 0 := rfl
@[simp] theorem toQuat_imI (q : Arr K) : (toQuat q).imI = q 1 := rfl
@[simp] theorem toQuat_imJ (q : Arr K) : (toQuat q).imJ = q 2 := rfl
@[simp] theorem toQuat_imK (q : Arr K) : (toQuat q).imK = q 3 := rfl

/-- The transformation matrix acts as conjugation by the quaternion. -/
theorem qtoM_action (q v : Arr K) (h : UnitQ q) :
    toQuat (arr [0, multiplyMV (qtoM q) v 3 0, multiplyMV (qtoM q) v 3 1,
        multiplyMV (qtoM q) v 3 2])
      = toQuat q * toQuat (arr [0, v 0, v 1, v 2]) * star (toQuat q) := by
  unfold UnitQ at h
  have h0 : q 0 ^ 2 = 1 - q 1 ^ 2 - q 2 ^ 2 - q 3 ^ 2 := by linear_combination h
  ext
  · simp; ring
  all_goals
    simp [multiplyMV, loop, qtoM, qtoMElement]
    ring_nf
    simp only [h0]
    ring

end quaternion

/-! ## From angles to quaternions -/

theorem computeQuatSeq_unit (e : Seq) {s1 c1 s2 c2 s3 c3 : ℝ} (h1 : s1 ^ 2 + c1 ^ 2 = 1)
    (h2 : s2 ^ 2 + c2 ^ 2 = 1) (h3 : s3 ^ 2 + c3 ^ 2 = 1) :
    UnitQ (computeQuatSeq e s1 c1 s2 c2 s3 c3) := by
  have key : (s1 ^ 2 + c1 ^ 2) * (s2 ^ 2 + c2 ^ 2) * (s3 ^ 2 + c3 ^ 2) = 1 := by
    rw [h1, h2, h3]; norm_num
  unfold UnitQ
  rw [← key]
  cases e <;> simp only [computeQuatSeq, arr_zero, arr_one, arr_two, arr_three] <;> ring

theorem attitude_entries (e : Seq) (a : Arr ℝ) {s1 c1 s2 c2 s3 c3 : ℝ}
    (h1 : c1 ^ 2 = 1 - s1 ^ 2) (h2 : c2 ^ 2 = 1 - s2 ^ 2) (h3 : c3 ^ 2 = 1 - s3 ^ 2)
    (hs1 : Real.sin (a 0) = 2 * s1 * c1) (hc1 : Real.cos (a 0) = 1 - 2 * s1 ^ 2)
    (hs2 : Real.sin (a 1) = 2 * s2 * c2) (hc2 : Real.cos (a 1) = 1 - 2 * s2 ^ 2)
    (hs3 : Real.sin (a 2) = 2 * s3 * c3) (hc3 : Real.cos (a 2) = 1 - 2 * s3 ^ 2) :
    toMat 3 (qtoM (computeQuatSeq e s1 c1 s2 c2 s3 c3)) = attitude e a := by
  rw [qtoM_mat]
  funext i j
  cases e <;> fin_cases i <;> fin_cases j <;>
    simp [attitude, axes, rot, computeQuatSeq, qtoMElement, Matrix.mul_apply,
      Fin.sum_univ_three, hs1, hc1, hs2, hc2, hs3, hc3] <;>
    ring_nf <;> (try simp only [h1, h2, h3]) <;> (try ring)

/-- The quaternion of the angles in force: a unit quaternion of the right attitude. -/
theorem computeQuat_spec (o : Euler) (euler : Option (Arr ℝ)) :
    let a := euler.getD o.angles;
    UnitQ (o.computeQuat euler).2 ∧
      toMat 3 (qtoM (o.computeQuat euler).2) = attitude o.seq a := by
  have hs : ∀ x : ℝ, Real.sin x = 2 * Real.sin (x * (1 / 2)) * Real.cos (x * (1 / 2)) := by
    intro x; rw [← Real.sin_two_mul]; congr 1; ring
  have hc : ∀ x : ℝ, Real.cos x = 1 - 2 * Real.sin (x * (1 / 2)) ^ 2 := by
    intro x
    have := Real.cos_two_mul' (x * (1 / 2))
    have h2 := Real.sin_sq_add_cos_sq (x * (1 / 2))
    rw [show 2 * (x * (1 / 2)) = x by ring] at this
    linarith
  have hq : ∀ x : ℝ, Real.cos x ^ 2 = 1 - Real.sin x ^ 2 := by
    intro x; have := Real.sin_sq_add_cos_sq x; linarith
  cases euler with
  | none =>
    refine ⟨computeQuatSeq_unit _ ?_ ?_ ?_, attitude_entries _ _ ?_ ?_ ?_ ?_ ?_ ?_ ?_ ?_ ?_⟩
    all_goals first
      | exact Real.sin_sq_add_cos_sq _
      | exact hq _
      | exact hs _
      | exact hc _
  | some a =>
    refine ⟨computeQuatSeq_unit _ ?_ ?_ ?_, attitude_entries _ _ ?_ ?_ ?_ ?_ ?_ ?_ ?_ ?_ ?_⟩
    all_goals first
      | exact Real.sin_sq_add_cos_sq _
      | exact hq _
      | exact hs _
      | exact hc _

end Gunns.Dyn
