import Verif.Dyn.QuatLemmas
import Mathlib.Tactic.IntervalCases

/-!
# C41: attitudes as Euler angles, quaternions and matrices
-/

namespace Gunns.Props

open Gunns.Dyn Matrix

/-- **C41.** The array operations are the operations of linear algebra, for every size. -/
theorem c41_linear_algebra {K : Type _} [CommRing K] (a b v w : Arr K) (n : Nat) :
    toMat n (multiplyMM a b n) = toMat n a * toMat n b ∧
    toVec n (multiplyMV a v n) = (toMat n a).mulVec (toVec n v) ∧
    toVec n (multiplyMtV a v n) = (toMat n a)ᵀ.mulVec (toVec n v) ∧
    dotV v w n = toVec n v ⬝ᵥ toVec n w ∧
    dotV (multiplyMV a v n) w n = dotV v (multiplyMtV a w n) n ∧
    toVec 3 (crossV3 v w) = (toMat 3 (skew v)).mulVec (toVec 3 w) ∧
    (toMat 3 (skew v))ᵀ = -toMat 3 (skew v) := by
  refine ⟨multiplyMM_eq _ _ _, multiplyMV_eq _ _ _, multiplyMtV_eq _ _ _, dotV_eq _ _ _, ?_,
    crossV3_eq _ _, ?_⟩
  · rw [dotV_eq, dotV_eq, multiplyMV_eq, multiplyMtV_eq, Matrix.mulVec_transpose,
      dotProduct_comm, Matrix.dotProduct_mulVec, dotProduct_comm]
  · funext i j
    fin_cases i <;> fin_cases j <;> simp [toMat, skew, arr]

/-- **C41.** The transformation matrix of a unit quaternion is a rotation, and it turns a vector as
conjugation by the quaternion does. -/
theorem c41_rotation {K : Type _} [CommRing K] (q v : Arr K) (h : UnitQ q) :
    toMat 3 (qtoM q) * (toMat 3 (qtoM q))ᵀ = 1 ∧ (toMat 3 (qtoM q)).det = 1 ∧
    toQuat (arr [0, multiplyMV (qtoM q) v 3 0, multiplyMV (qtoM q) v 3 1,
        multiplyMV (qtoM q) v 3 2])
      = toQuat q * toQuat (arr [0, v 0, v 1, v 2]) * star (toQuat q) :=
  ⟨qtoM_orth q h, qtoM_det q h, qtoM_action q v h⟩

/-- **C41.** The quaternion computed from three angles is a unit quaternion, its matrix is the turn
about the first axis followed by the turns about the second and the third, and the angles are
kept. -/
theorem c41_sequence (o : Euler) (a : Arr ℝ) :
    UnitQ (o.computeQuat (some a)).2 ∧
    toMat 3 (qtoM (o.computeQuat (some a)).2)
      = rot (axes o.seq).2.2 (a 2) * rot (axes o.seq).2.1 (a 1) * rot (axes o.seq).1 (a 0) ∧
    (o.computeQuat (some a)).1.angles = a ∧ (o.computeQuat (some a)).1.prevAngles = a ∧
    (o.computeQuat (some a)).1.seq = o.seq ∧
    UnitQ (o.computeQuat none).2 ∧
    toMat 3 (qtoM (o.computeQuat none).2)
      = rot (axes o.seq).2.2 (o.angles 2) * rot (axes o.seq).2.1 (o.angles 1)
        * rot (axes o.seq).1 (o.angles 0) ∧
    (o.computeQuat none).1 = o := by
  obtain ⟨h1, h2⟩ := computeQuat_spec o (some a)
  obtain ⟨h3, h4⟩ := computeQuat_spec o none
  exact ⟨h1, h2, rfl, rfl, rfl, h3, h4, rfl⟩

/-- **C41.** Angles survive the way to a quaternion and back, away from the singularity. -/
theorem c41_angles_recovered (o o2 : Euler) (a : Arr ℝ) (hseq : o2.seq = o.seq)
    (h0 : -Real.pi < a 0 ∧ a 0 ≤ Real.pi)
    (h1 : -(Real.pi / 2) + 1e-6 < a 1 ∧ a 1 < Real.pi / 2 - 1e-6)
    (h2 : -Real.pi < a 2 ∧ a 2 ≤ Real.pi) :
    ∃ o', o2.update (o.computeQuat (some a)).2 = some o' ∧
      o'.angles 0 = a 0 ∧ o'.angles 1 = a 1 ∧ o'.angles 2 = a 2 ∧
      o'.prevAngles = o'.angles ∧ o'.singularity = 0 := by
  obtain ⟨hu, hm⟩ := computeQuat_spec o (some a)
  have hm' : toMat 3 (qtoM (o.computeQuat (some a)).2) = attitude o2.seq (arr [a 0, a 1, a 2]) := by
    rw [hm, hseq]
    exact attitude_congr _ rfl rfl rfl
  obtain ⟨hs, ha⟩ := angles_of_attitude o2.seq _ hm' (by linarith) (by linarith) h0.1 h0.2 h2.1 h2.2
  have hb := rot2sin_le o2.seq (o.computeQuat (some a)).2 (le_of_eq hu)
  have hlt : |computeRot2Sin o2.seq (o.computeQuat (some a)).2| < tolSing := by
    rw [hs, abs_lt]
    unfold tolSing
    rw [← Real.sin_neg]
    constructor
    · apply Real.sin_lt_sin_of_lt_of_le_pi_div_two <;> linarith
    · apply Real.sin_lt_sin_of_lt_of_le_pi_div_two <;> linarith
  refine ⟨⟨o2.seq, arr [a 0, a 1, a 2], arr [a 0, a 1, a 2], 0⟩, ?_, rfl, rfl, rfl, rfl, rfl⟩
  have hi : isInRange (-1) (computeRot2Sin o2.seq (o.computeQuat (some a)).2) 1 := hb
  unfold Euler.update anglesOf
  simp only [if_pos hi, if_pos hlt]
  rw [hs, ha]

/-- **C41.** No unit quaternion is refused, and the angles found for it are principal values with
its attitude: exactly, away from the singularity and on it, and within a millionth in every element
of the matrix in between, where the third angle is given up. -/
theorem c41_attitude_recovered (o : Euler) (q : Arr ℝ) (h : UnitQ q) :
    ∃ o', o.update q = some o' ∧ o'.seq = o.seq ∧ o'.prevAngles = o'.angles ∧
      (-Real.pi < o'.angles 0 ∧ o'.angles 0 ≤ Real.pi) ∧
      (-(Real.pi / 2) ≤ o'.angles 1 ∧ o'.angles 1 ≤ Real.pi / 2) ∧
      (-Real.pi < o'.angles 2 ∧ o'.angles 2 ≤ Real.pi) ∧
      (o'.singularity = 0 → attitude o.seq o'.angles = toMat 3 (qtoM q)) ∧
      (o'.singularity ≠ 0 → |o'.angles 1| = Real.pi / 2 ∧ o'.angles 2 = 0 ∧
        ∀ i j, |attitude o.seq o'.angles i j - toMat 3 (qtoM q) i j| ≤ 1e-6) ∧
      (∀ x y z, attitude o.seq (arr [x, y, z]) = toMat 3 (qtoM q) →
        |Real.sin y| < Real.cos 1e-6 ∨ |Real.sin y| = 1 →
        attitude o.seq o'.angles = toMat 3 (qtoM q)) := by
  have hb := rot2sin_le o.seq q (le_of_eq h)
  have hi : isInRange (-1) (computeRot2Sin o.seq q) 1 := hb
  have hpi := Real.pi_pos
  by_cases hlt : |computeRot2Sin o.seq q| < tolSing
  · have hm := noSing_attitude o.seq q h (lt_of_lt_of_le hlt tolSing_le_one)
    have hr : (-Real.pi < computeAnglesNoSing o.seq q (computeRot2Sin o.seq q) 0 ∧
        computeAnglesNoSing o.seq q (computeRot2Sin o.seq q) 0 ≤ Real.pi) ∧
        computeAnglesNoSing o.seq q (computeRot2Sin o.seq q) 1
          = Real.arcsin (computeRot2Sin o.seq q) ∧
        (-Real.pi < computeAnglesNoSing o.seq q (computeRot2Sin o.seq q) 2 ∧
        computeAnglesNoSing o.seq q (computeRot2Sin o.seq q) 2 ≤ Real.pi) := by
      cases o.seq <;> exact ⟨atan2_mem _ _, rfl, atan2_mem _ _⟩
    refine ⟨⟨o.seq, _, computeAnglesNoSing o.seq q (computeRot2Sin o.seq q), 0⟩, ?_, rfl, rfl,
      hr.1, ?_, hr.2.2, fun _ => hm, fun hc => absurd rfl hc, fun _ _ _ _ _ => hm⟩
    · unfold Euler.update anglesOf
      simp only [if_pos hi, if_pos hlt]
    · dsimp only
      rw [hr.2.1]
      exact ⟨Real.neg_pi_div_two_le_arcsin _, Real.arcsin_le_pi_div_two _⟩
  · have hns := near_sing (not_lt.mp hlt)
    by_cases hp : 0 < computeRot2Sin o.seq q
    · have hr : (-Real.pi < computeAnglesPosSing o.seq q 0 ∧
          computeAnglesPosSing o.seq q 0 ≤ Real.pi) ∧
          computeAnglesPosSing o.seq q 1 = Real.pi / 2 ∧ computeAnglesPosSing o.seq q 2 = 0 := by
        cases o.seq <;> exact ⟨atan2_mem _ _, rfl, rfl⟩
      refine ⟨⟨o.seq, _, computeAnglesPosSing o.seq q, 1⟩, ?_, rfl, rfl, hr.1, ?_, ?_,
        fun hc => ?_, fun _ => ⟨?_, hr.2.2, singPos_attitude o.seq q h (by norm_num) (by norm_num)
          hns hp.le⟩, fun x y z hxyz hcase => ?_⟩
      · unfold Euler.update anglesOf
        simp only [if_pos hi, if_neg hlt, if_pos hp]
      · dsimp only; rw [hr.2.1]; constructor <;> linarith
      · dsimp only; rw [hr.2.2]; constructor <;> linarith
      · cases hc
      · dsimp only; rw [hr.2.1, abs_of_pos (by linarith)]
      · rw [rot2sin_of_attitude o.seq q hxyz.symm, tolSing_eq] at hlt
        rcases hcase with hc | hc
        · exact absurd hc hlt
        · have h0 : 1 - computeRot2Sin o.seq q ^ 2 ≤ (0 : ℝ) ^ 2 := by
            rw [rot2sin_of_attitude o.seq q hxyz.symm, ← sq_abs, hc]; norm_num
          funext i j
          have := singPos_attitude o.seq q h le_rfl (by norm_num) h0 hp.le i j
          exact sub_eq_zero.mp (abs_nonpos_iff.mp this)
    · have hn : computeRot2Sin o.seq q ≤ 0 := not_lt.mp hp
      have hr : (-Real.pi < computeAnglesNegSing o.seq q 0 ∧
          computeAnglesNegSing o.seq q 0 ≤ Real.pi) ∧
          computeAnglesNegSing o.seq q 1 = -(Real.pi / 2) ∧
          computeAnglesNegSing o.seq q 2 = 0 := by
        cases o.seq <;> exact ⟨atan2_mem _ _, rfl, rfl⟩
      refine ⟨⟨o.seq, _, computeAnglesNegSing o.seq q, 2⟩, ?_, rfl, rfl, hr.1, ?_, ?_,
        fun hc => ?_, fun _ => ⟨?_, hr.2.2, singNeg_attitude o.seq q h (by norm_num) (by norm_num)
          hns hn⟩, fun x y z hxyz hcase => ?_⟩
      · unfold Euler.update anglesOf
        simp only [if_pos hi, if_neg hlt, if_neg hp]
      · dsimp only; rw [hr.2.1]; constructor <;> linarith
      · dsimp only; rw [hr.2.2]; constructor <;> linarith
      · cases hc
      · dsimp only; rw [hr.2.1, abs_neg, abs_of_pos (by linarith)]
      · rw [rot2sin_of_attitude o.seq q hxyz.symm, tolSing_eq] at hlt
        rcases hcase with hc | hc
        · exact absurd hc hlt
        · have h0 : 1 - computeRot2Sin o.seq q ^ 2 ≤ (0 : ℝ) ^ 2 := by
            rw [rot2sin_of_attitude o.seq q hxyz.symm, ← sq_abs, hc]; norm_num
          funext i j
          have := singNeg_attitude o.seq q h le_rfl (by norm_num) h0 hn i j
          exact sub_eq_zero.mp (abs_nonpos_iff.mp this)

/-- **C41.** Normalizing scales a quaternion by one positive factor to unit magnitude: exactly when
it was further from it than the tolerance, and otherwise up to the square of half the relative error
in its squared magnitude.  Only the zero quaternion divides by zero. -/
theorem c41_normalize (q : Arr ℝ) :
    (normalizeQ q = none ↔ ∀ i, i < 4 → q i = 0) ∧
    ∀ r, normalizeQ q = some r →
      (∃ f : ℝ, 0 < f ∧ ∀ i, i < 4 → r i = f * q i) ∧
      (2.3842e-7 ≤ |1 - (q 0 ^ 2 + q 1 ^ 2 + q 2 ^ 2 + q 3 ^ 2)| → UnitQ r) ∧
      r 0 ^ 2 + r 1 ^ 2 + r 2 ^ 2 + r 3 ^ 2 ≤ 1 ∧
      1 - 1.5e-14 < r 0 ^ 2 + r 1 ^ 2 + r 2 ^ 2 + r 3 ^ 2 := by
  have htol : quatNormTolerance = 2.3842e-7 := by unfold quatNormTolerance; norm_num
  constructor
  · constructor
    · intro hn i hi
      by_contra hne
      obtain ⟨r, hr⟩ := normalizeQ_some q i hi hne
      rw [hr] at hn
      cases hn
    · exact normalizeQ_none q
  · intro r hr
    obtain ⟨h1, h2, h3⟩ := normalizeQ_spec q r hr
    rw [htol] at h2 h3
    refine ⟨h1, h2, ?_⟩
    by_cases hc : |1 - (q 0 ^ 2 + q 1 ^ 2 + q 2 ^ 2 + q 3 ^ 2)| < 2.3842e-7
    · have h4 := h3 hc
      rw [h4]
      generalize q 0 ^ 2 + q 1 ^ 2 + q 2 ^ 2 + q 3 ^ 2 = n at *
      rw [abs_lt] at hc
      have hp : 0 < 1 + n := by linarith
      have hx : |(1 - n) / (1 + n)| ≤ 1.2e-7 := by
        rw [abs_div, abs_of_pos hp, div_le_iff₀ hp, abs_le]
        constructor <;> linarith
      have hx2 : ((1 - n) / (1 + n)) ^ 2 ≤ 1.2e-7 ^ 2 := by
        rw [← sq_abs]; exact pow_le_pow_left₀ (abs_nonneg _) hx 2
      constructor
      · have := sq_nonneg ((1 - n) / (1 + n)); linarith
      · norm_num at hx2 ⊢; linarith
    · have := h2 (not_lt.mp hc)
      unfold UnitQ at this
      rw [this]
      norm_num

/-- **C41.** The factory makes the sequence whose axes are the three digits it is asked for, and nothing
else. -/
theorem c41_create (n : Nat) (s : Seq) :
    create n = some s ↔
      n = 100 * ((axes s).1.val + 1) + 10 * ((axes s).2.1.val + 1) + ((axes s).2.2.val + 1) := by
  constructor
  · intro h
    unfold create at h
    split at h <;> cases h <;> rfl
  · rintro rfl
    cases s <;> rfl

example : create 231 = some .YZX := rfl

/-- **C41.** Normalizing a vector divides it by its length, and is refused exactly if the length is
below the tolerance; then the vector stays. -/
theorem c41_normalize_vector (v : Arr ℝ) (n : Nat) :
    (magV v n = Real.sqrt (toVec n v ⬝ᵥ toVec n v)) ∧
    (normalizeV v = none ↔ Real.sqrt (v 0 ^ 2 + v 1 ^ 2 + v 2 ^ 2) < dblEps) ∧
    (∀ r, normalizeV v = some r →
      r 0 ^ 2 + r 1 ^ 2 + r 2 ^ 2 = 1 ∧ ∃ f : ℝ, 0 < f ∧ ∀ i, i < 3 → r i = f * v i) ∧
    ((normalizeVSuccess v n).1 = true ↔ dblEps ≤ magV v n) ∧
    (dblEps ≤ magV v n → magV (normalizeVSuccess v n).2 n = 1 ∧
      ∀ i, (normalizeVSuccess v n).2 i * magV v n = v i) ∧
    (magV v n < dblEps → (normalizeVSuccess v n).2 = v) := by
  have hmag : ∀ (v : Arr ℝ) n, magV v n = Real.sqrt (toVec n v ⬝ᵥ toVec n v) := by
    intro v n
    rw [← dotV_eq]
    rfl
  have h3 : magV v 3 = Real.sqrt (v 0 ^ 2 + v 1 ^ 2 + v 2 ^ 2) := by
    unfold magV
    congr 1
    simp only [loop]
    ring
  have he := dblEps_pos (K := ℝ)
  refine ⟨hmag v n, ?_, ?_, ?_, ?_, ?_⟩
  · unfold normalizeV vecNormTolerance
    dsimp only
    rw [← h3]
    split_ifs with h
    · simp [h]
    · simp [h]
  · intro r hr
    unfold normalizeV vecNormTolerance at hr
    dsimp only at hr
    split_ifs at hr with h
    cases hr
    have hp : 0 < magV v 3 := lt_of_lt_of_le he (not_lt.1 h)
    have hsq : magV v 3 ^ 2 = v 0 ^ 2 + v 1 ^ 2 + v 2 ^ 2 := by
      rw [h3, Real.sq_sqrt (by positivity)]
    simp only [arr_zero, arr_one, arr_two]
    refine ⟨?_, 1 / magV v 3, by positivity, ?_⟩
    · rw [mul_pow, mul_pow, mul_pow, ← add_mul, ← add_mul, ← hsq]
      field_simp
    · intro i hi
      interval_cases i <;> simp only [arr_zero, arr_one, arr_two] <;> ring
  · unfold normalizeVSuccess vecNormTolerance
    dsimp only
    split_ifs with h
    · simp [h]
    · simp [not_lt.1 h]
  · intro h
    have hp : 0 < magV v n := lt_of_lt_of_le he h
    have e : (normalizeVSuccess v n).2 = scaleV v (1 / magV v n) := by
      unfold normalizeVSuccess vecNormTolerance
      dsimp only
      rw [if_neg (not_lt.2 h)]
    rw [e]
    constructor
    · have hsc : toVec n (scaleV v (1 / magV v n)) = (1 / magV v n) • toVec n v := by
        funext i
        simp only [toVec, scaleV, Pi.smul_apply, smul_eq_mul]
        ring
      rw [hmag (scaleV v _), hsc, smul_dotProduct, dotProduct_smul, smul_eq_mul, smul_eq_mul,
        ← mul_assoc, Real.sqrt_mul (by positivity), Real.sqrt_mul_self (by positivity), ← hmag,
        one_div, inv_mul_cancel₀ hp.ne']
    · intro i
      simp only [scaleV]
      field_simp
  · intro h
    unfold normalizeVSuccess vecNormTolerance
    dsimp only
    rw [if_pos h]

/-- Both cases occur. -/
example : normalizeV (arr [3, 0, 4]) ≠ none ∧ normalizeV (arr [0, 0, 0]) = none := by
  have he : (dblEps : ℝ) < 1 := dblEps_lt_one
  constructor
  · intro h
    rw [(c41_normalize_vector _ 3).2.1] at h
    simp only [arr_zero, arr_one, arr_two] at h
    rw [show (3 : ℝ) ^ 2 + 0 ^ 2 + 4 ^ 2 = 5 ^ 2 by norm_num, Real.sqrt_sq (by norm_num)] at h
    linarith
  · rw [(c41_normalize_vector _ 3).2.1]
    simp only [arr_zero, arr_one, arr_two]
    simp [dblEps_pos]

/-- **C41.** No quaternion of at most unit magnitude is refused, in particular none that has been
normalized. -/
theorem c41_never_refused (o : Euler) (q : Arr ℝ) :
    (q 0 ^ 2 + q 1 ^ 2 + q 2 ^ 2 + q 3 ^ 2 ≤ 1 → ∃ o', o.update q = some o') ∧
    (∀ p, normalizeQ p = some q → ∃ o', o.update q = some o') := by
  have key : q 0 ^ 2 + q 1 ^ 2 + q 2 ^ 2 + q 3 ^ 2 ≤ 1 → ∃ o', o.update q = some o' := by
    intro h
    have hi : isInRange (-1) (computeRot2Sin o.seq q) 1 := rot2sin_le o.seq q h
    unfold Euler.update anglesOf
    simp only [if_pos hi]
    by_cases h1 : |computeRot2Sin o.seq q| < tolSing
    · simp only [if_pos h1]; exact ⟨_, rfl⟩
    · by_cases h2 : 0 < computeRot2Sin o.seq q
      · simp only [if_neg h1, if_pos h2]; exact ⟨_, rfl⟩
      · simp only [if_neg h1, if_neg h2]; exact ⟨_, rfl⟩
  exact ⟨key, fun p hp => key ((c41_normalize p).2 q hp).2.2.1⟩

/-- A quaternion far from unit magnitude is refused: twice the quaternion of a turn of a right angle
about the second axis has a second sine of four. -/
example : (Euler.new .XYZ).update (arr [Real.sqrt 2, 0, -Real.sqrt 2, 0]) = none := by
  have hs : Real.sqrt 2 * Real.sqrt 2 = 2 := Real.mul_self_sqrt (by norm_num)
  have h : computeRot2Sin (Euler.new .XYZ).seq (arr [Real.sqrt 2, 0, -Real.sqrt 2, 0]) = 4 := by
    simp only [Euler.new, computeRot2Sin, qtoMElement, arr_zero, arr_one, arr_two, arr_three]
    linarith
  unfold Euler.update anglesOf
  simp only [h, isInRange, tolE15]
  norm_num

/-- **C41.** A unit quaternion and its matrix determine each other, up to the sign that makes the
scalar part positive; only half turns (no scalar part, trace minus one) are refused. -/
theorem c41_matrix_quaternion :
    (∀ q : Arr ℝ, UnitQ q → (mtoQ (qtoM q) = none ↔ q 0 = 0) ∧
      ∀ r, mtoQ (qtoM q) = some r →
        ∃ s : ℝ, (s = 1 ∨ s = -1) ∧ 0 < r 0 ∧ ∀ i, i < 4 → r i = s * q i) ∧
    (∀ m : Arr ℝ, toMat 3 m * (toMat 3 m)ᵀ = 1 → (toMat 3 m).det = 1 →
      (mtoQ m = none ↔ (toMat 3 m).trace = -1) ∧
      ∀ r, mtoQ m = some r → UnitQ r ∧ 0 < r 0 ∧ toMat 3 (qtoM r) = toMat 3 m) := by
  refine ⟨fun q hq => ⟨⟨fun hn => ?_, mtoQ_half_turn q hq⟩, fun r hr => ?_⟩,
    fun m ho hd => ⟨?_, fun r hr => qtoM_mtoQ m r ho hd hr⟩⟩
  · by_contra h0
    rw [mtoQ_qtoM q hq h0] at hn
    cases hn
  · by_cases h0 : q 0 = 0
    · rw [mtoQ_half_turn q hq h0] at hr
      cases hr
    · rw [mtoQ_qtoM q hq h0, Option.some.injEq] at hr
      subst hr
      have ha : 0 < |q 0| := abs_pos.mpr h0
      refine ⟨|q 0| / q 0, ?_, ha, ?_⟩
      · rcases lt_or_gt_of_ne h0 with hl | hg
        · right; rw [abs_of_neg hl, neg_div, div_self h0]
        · left; rw [abs_of_pos hg, div_self h0]
      · intro i hi
        match i, hi with
        | 0, _ => rw [arr_zero]; field_simp
        | 1, _ => rw [arr_one]; ring
        | 2, _ => rw [arr_two]; ring
        | 3, _ => rw [arr_three]; ring
  · have ht : (toMat 3 m).trace = m 0 + m 4 + m 8 := by
      simp [Matrix.trace, Fin.sum_univ_three, toMat]
    have hge : -1 ≤ m 0 + m 4 + m 8 := trace_ge m ho hd
    rw [ht]
    unfold mtoQ
    by_cases hlt : -1 < m 0 + m 4 + m 8
    · simp only [if_pos hlt]
      constructor
      · intro hc; cases hc
      · intro hc; linarith
    · simp only [if_neg hlt]
      exact ⟨fun _ => by linarith, fun _ => trivial⟩

/-- **C41.** The rate of a quaternion is half its product with the angular velocity, keeps its
magnitude, and turns its matrix at exactly that angular velocity. -/
theorem c41_rates (q w : Arr ℝ) :
    toQuat (qdot q w) = (-(1 / 2) : ℝ) • (toQuat (arr [0, w 0, w 1, w 2]) * toQuat q) ∧
    q 0 * qdot q w 0 + q 1 * qdot q w 1 + q 2 * qdot q w 2 + q 3 * qdot q w 3 = 0 ∧
    (UnitQ q → ∀ (p : ℝ → Arr ℝ) (t : ℝ), p t = q →
      (∀ i, i < 4 → HasDerivAt (fun s => p s i) (qdot q w i) t) →
      ∀ i j, HasDerivAt (fun s => toMat 3 (qtoM (p s)) i j)
        ((-(toMat 3 (skew w)) * toMat 3 (qtoM q)) i j) t) := by
  refine ⟨qdot_product q w, qdot_norm q w, ?_⟩
  intro hu p t hpt hd i j
  have := qtoM_deriv p (fun _ => w) t (by rw [hpt]; exact hu) (by rw [hpt]; exact hd) i j
  rwa [hpt] at this

/-! ## Cases -/

/-- A turn of a third about the diagonal: a unit quaternion whose matrix moves every axis to the
next. -/
example : UnitQ (arr [1 / 2, 1 / 2, 1 / 2, 1 / 2] : Arr ℚ) ∧
    (toMat 3 (qtoM (arr [1 / 2, 1 / 2, 1 / 2, 1 / 2] : Arr ℚ)))
      = !![0, 0, 1; 1, 0, 0; 0, 1, 0] := by
  constructor
  · unfold UnitQ; norm_num
  · funext i j
    fin_cases i <;> fin_cases j <;> norm_num [toMat, qtoM, qtoMElement]

/-- Angles inside the range of `c41_angles_recovered`. -/
example : ∃ a : Arr ℝ, (-Real.pi < a 0 ∧ a 0 ≤ Real.pi) ∧
    (-(Real.pi / 2) + 1e-6 < a 1 ∧ a 1 < Real.pi / 2 - 1e-6) ∧ (-Real.pi < a 2 ∧ a 2 ≤ Real.pi) ∧
    a 0 ≠ 0 ∧ a 1 ≠ 0 ∧ a 2 ≠ 0 := by
  have := Real.two_le_pi
  refine ⟨arr [1, -1 / 2, 2], ?_, ?_, ?_, ?_, ?_, ?_⟩ <;>
    simp only [arr_zero, arr_one, arr_two] <;> norm_num <;> (try constructor) <;> linarith

/-- A unit quaternion on the singularity of the sequence: a right angle about the second
axis. -/
example : UnitQ (arr [Real.sqrt 2 / 2, 0, -(Real.sqrt 2 / 2), 0]) ∧
    computeRot2Sin .XYZ (arr [Real.sqrt 2 / 2, 0, -(Real.sqrt 2 / 2), 0]) = 1 := by
  have hs : Real.sqrt 2 * Real.sqrt 2 = 2 := Real.mul_self_sqrt (by norm_num)
  constructor
  · simp only [UnitQ, arr_zero, arr_one, arr_two, arr_three]
    nlinarith
  · simp only [computeRot2Sin, qtoMElement, arr_zero, arr_one, arr_two, arr_three]
    linarith

/-- The identity is a rotation with a trace above minus one. -/
example : toMat 3 (arr [1, 0, 0, 0, 1, 0, 0, 0, 1] : Arr ℝ) = 1 := by
  funext i j
  fin_cases i <;> fin_cases j <;> simp [toMat, arr]

end Gunns.Props
