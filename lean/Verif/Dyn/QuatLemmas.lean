import Verif.Dyn.EulerRecover

set_option linter.unusedSectionVars false

namespace Gunns.Dyn

open Matrix

/-! ## Matrix to quaternion -/

theorem unitQ_trace (q : Arr ℝ) (h : UnitQ q) :
    qtoMElement q 0 + qtoMElement q 4 + qtoMElement q 8 = 4 * q 0 ^ 2 - 1 := by
  unfold UnitQ at h
  simp only [qtoMElement]
  linear_combination -4 * h

/-- The quaternion recovered from the matrix of a quaternion with a scalar part. -/
theorem mtoQ_qtoM (q : Arr ℝ) (h : UnitQ q) (h0 : q 0 ≠ 0) :
    mtoQ (qtoM q) = some (arr [|q 0|, q 1 * (|q 0| / q 0), q 2 * (|q 0| / q 0),
      q 3 * (|q 0| / q 0)]) := by
  have ht := unitQ_trace q h
  have hp : 0 < q 0 ^ 2 := by positivity
  have hs : Real.sqrt (1 + (4 * q 0 ^ 2 - 1)) = 2 * |q 0| := by
    rw [show 1 + (4 * q 0 ^ 2 - 1) = (2 * q 0) ^ 2 by ring, Real.sqrt_sq_eq_abs, abs_mul]
    norm_num
  have ha : |q 0| ≠ 0 := abs_ne_zero.mpr h0
  have hsq : |q 0| ^ 2 = q 0 ^ 2 := sq_abs _
  have hif : -1 < qtoM q 0 + qtoM q 4 + qtoM q 8 := by
    have : qtoM q 0 + qtoM q 4 + qtoM q 8 = 4 * q 0 ^ 2 - 1 := ht
    linarith
  simp only [mtoQ]
  rw [if_pos hif, show qtoM q 0 + qtoM q 4 + qtoM q 8 = 4 * q 0 ^ 2 - 1 from ht, hs]
  simp only [qtoM, qtoMElement]
  congr 2
  have e0 : (1 / 2 * (2 * |q 0|) : ℝ) = |q 0| := by ring
  rw [e0]
  have key : ∀ x : ℝ, q 0 * x / |q 0| = x * (|q 0| / q 0) := by
    intro x
    rw [div_eq_iff ha]
    field_simp
    rw [hsq]
    ring
  rw [← key, ← key, ← key]
  congr 1
  congr 1
  · ring
  · congr 1
    · ring
    · congr 1; ring

/-- A half turn has no scalar part and no quaternion is recovered. -/
theorem mtoQ_half_turn (q : Arr ℝ) (h : UnitQ q) (h0 : q 0 = 0) : mtoQ (qtoM q) = none := by
  have ht := unitQ_trace q h
  have hif : ¬ -1 < qtoM q 0 + qtoM q 4 + qtoM q 8 := by
    have : qtoM q 0 + qtoM q 4 + qtoM q 8 = 4 * q 0 ^ 2 - 1 := ht
    rw [this, h0]
    norm_num
  simp only [mtoQ]
  rw [if_neg hif]

/-- A rotation matrix as an array. -/
theorem rotation_facts (m : Arr ℝ) (ho : toMat 3 m * (toMat 3 m)ᵀ = 1) (hd : (toMat 3 m).det = 1) :
    (m 0 ^ 2 + m 1 ^ 2 + m 2 ^ 2 = 1 ∧ m 3 ^ 2 + m 4 ^ 2 + m 5 ^ 2 = 1 ∧
      m 6 ^ 2 + m 7 ^ 2 + m 8 ^ 2 = 1) ∧
    (m 0 = m 4 * m 8 - m 5 * m 7 ∧ m 1 = m 5 * m 6 - m 3 * m 8 ∧ m 2 = m 3 * m 7 - m 4 * m 6 ∧
      m 3 = m 2 * m 7 - m 1 * m 8 ∧ m 4 = m 0 * m 8 - m 2 * m 6 ∧ m 5 = m 1 * m 6 - m 0 * m 7 ∧
      m 6 = m 1 * m 5 - m 2 * m 4 ∧ m 7 = m 2 * m 3 - m 0 * m 5 ∧
      m 8 = m 0 * m 4 - m 1 * m 3) := by
  have hadj : (toMat 3 m)ᵀ = (toMat 3 m).adjugate := by
    have h1 : (toMat 3 m).adjugate * toMat 3 m = 1 := by
      rw [Matrix.adjugate_mul, hd, one_smul]
    calc (toMat 3 m)ᵀ = ((toMat 3 m).adjugate * toMat 3 m) * (toMat 3 m)ᵀ := by
          rw [h1, Matrix.one_mul]
      _ = (toMat 3 m).adjugate := by rw [Matrix.mul_assoc, ho, Matrix.mul_one]
  have e : ∀ i j : Fin 3, (toMat 3 m) j i = (toMat 3 m).adjugate i j := by
    intro i j
    rw [← hadj]
    rfl
  have o : ∀ i : Fin 3, ∑ k, (toMat 3 m) i k * (toMat 3 m) i k = 1 := by
    intro i
    have := congrFun (congrFun ho i) i
    rw [Matrix.mul_apply] at this
    simpa using this
  have l : toMat 3 m = !![m 0, m 1, m 2; m 3, m 4, m 5; m 6, m 7, m 8] := by
    funext i j
    fin_cases i <;> fin_cases j <;> rfl
  rw [l] at e o
  rw [Matrix.adjugate_fin_three] at e
  have o0 := o 0
  have o1 := o 1
  have o2 := o 2
  simp only [Fin.sum_univ_three] at o0 o1 o2
  have e00 := e 0 0
  have e01 := e 0 1
  have e02 := e 0 2
  have e10 := e 1 0
  have e11 := e 1 1
  have e12 := e 1 2
  have e20 := e 2 0
  have e21 := e 2 1
  have e22 := e 2 2
  simp at o0 o1 o2 e00 e01 e02 e10 e11 e12 e20 e21 e22
  refine ⟨⟨?_, ?_, ?_⟩, ?_, ?_, ?_, ?_, ?_, ?_, ?_, ?_, ?_⟩
  · linear_combination o0
  · linear_combination o1
  · linear_combination o2
  · linear_combination e00
  · linear_combination e10
  · linear_combination e20
  · linear_combination e01
  · linear_combination e11
  · linear_combination e21
  · linear_combination e02
  · linear_combination e12
  · linear_combination e22

/-- The products behind the recovered quaternion. -/
theorem rotation_products (m : Arr ℝ) (ho : toMat 3 m * (toMat 3 m)ᵀ = 1)
    (hd : (toMat 3 m).det = 1) :
    ((m 7 - m 5) ^ 2 = (1 + (m 0 + m 4 + m 8)) * (1 + m 0 - m 4 - m 8) ∧
      (m 2 - m 6) ^ 2 = (1 + (m 0 + m 4 + m 8)) * (1 - m 0 + m 4 - m 8) ∧
      (m 3 - m 1) ^ 2 = (1 + (m 0 + m 4 + m 8)) * (1 - m 0 - m 4 + m 8)) ∧
    ((m 7 - m 5) * (m 2 - m 6) = (1 + (m 0 + m 4 + m 8)) * (m 1 + m 3) ∧
      (m 7 - m 5) * (m 3 - m 1) = (1 + (m 0 + m 4 + m 8)) * (m 2 + m 6) ∧
      (m 2 - m 6) * (m 3 - m 1) = (1 + (m 0 + m 4 + m 8)) * (m 5 + m 7)) := by
  obtain ⟨⟨r0, r1, r2⟩, k0, k1, k2, k3, k4, k5, k6, k7, k8⟩ := rotation_facts m ho hd
  have ho' : (toMat 3 m)ᵀ * toMat 3 m = 1 := mul_eq_one_comm.mp ho
  have l : toMat 3 m = !![m 0, m 1, m 2; m 3, m 4, m 5; m 6, m 7, m 8] := by
    funext i j
    fin_cases i <;> fin_cases j <;> rfl
  have row : ∀ i j : Fin 3, i ≠ j → ∑ k, toMat 3 m i k * toMat 3 m j k = 0 := by
    intro i j hij
    have := congrFun (congrFun ho i) j
    rw [Matrix.mul_apply, Matrix.one_apply_ne hij] at this
    simpa using this
  have col : ∀ i j : Fin 3, i ≠ j → ∑ k, toMat 3 m k i * toMat 3 m k j = 0 := by
    intro i j hij
    have := congrFun (congrFun ho' i) j
    rw [Matrix.mul_apply, Matrix.one_apply_ne hij] at this
    simpa using this
  have r01 := row 0 1 (by decide)
  have r02 := row 0 2 (by decide)
  have r12 := row 1 2 (by decide)
  have c01 := col 0 1 (by decide)
  have c02 := col 0 2 (by decide)
  have c12 := col 1 2 (by decide)
  rw [l] at r01 r02 r12 c01 c02 c12
  simp [Fin.sum_univ_three] at r01 r02 r12 c01 c02 c12
  have l0 : m 0 ^ 2 + m 3 ^ 2 + m 6 ^ 2 = 1 := by
    linear_combination r0 + m 3 * k3 + m 6 * k6 - m 1 * k1 - m 2 * k2
  have l1 : m 1 ^ 2 + m 4 ^ 2 + m 7 ^ 2 = 1 := by
    linear_combination r1 + m 1 * k1 + m 7 * k7 - m 3 * k3 - m 5 * k5
  have l2 : m 2 ^ 2 + m 5 ^ 2 + m 8 ^ 2 = 1 := by
    linear_combination r2 + m 2 * k2 + m 5 * k5 - m 6 * k6 - m 7 * k7
  refine ⟨⟨?_, ?_, ?_⟩, ?_, ?_, ?_⟩
  · linear_combination r1 + r2 - l0 - 2 * k0
  · linear_combination r0 + r2 - l1 - 2 * k4
  · linear_combination r0 + r1 - l2 - 2 * k8
  · linear_combination -k3 - k1 - r01 - c01
  · linear_combination -k2 - k6 - r02 - c02
  · linear_combination -k5 - k7 - r12 - c12

theorem qtoM_mtoQ (m q : Arr ℝ) (ho : toMat 3 m * (toMat 3 m)ᵀ = 1) (hd : (toMat 3 m).det = 1)
    (h : mtoQ m = some q) : UnitQ q ∧ 0 < q 0 ∧ toMat 3 (qtoM q) = toMat 3 m := by
  obtain ⟨⟨a1, a2, a3⟩, b12, b13, b23⟩ := rotation_products m ho hd
  unfold mtoQ at h
  by_cases ht : -1 < m 0 + m 4 + m 8
  · simp only [if_pos ht, Option.some.injEq] at h
    have hpos : 0 < 1 + (m 0 + m 4 + m 8) := by linarith
    have hsq := Real.sq_sqrt hpos.le
    have hsp := Real.sqrt_pos.mpr hpos
    generalize Real.sqrt (1 + (m 0 + m 4 + m 8)) = r at *
    have hr : r ≠ 0 := hsp.ne'
    have hrr : r ^ 2 ≠ 0 := pow_ne_zero 2 hr
    have hhalf : ∀ x : ℝ, 1 / 4 * x / (1 / 2 * r) * (2 * r) = x := by
      intro x; field_simp; ring
    have e1 : q 1 * (2 * r) = m 7 - m 5 := by rw [← h, arr_one]; exact hhalf _
    have e2 : q 2 * (2 * r) = m 2 - m 6 := by rw [← h, arr_two]; exact hhalf _
    have e3 : q 3 * (2 * r) = m 3 - m 1 := by rw [← h, arr_three]; exact hhalf _
    have e0 : q 0 = 1 / 2 * r := by rw [← h, arr_zero]
    rw [← hsq, ← e1] at a1 b12 b13
    rw [← hsq, ← e2] at a2 b23
    rw [← e2] at b12
    rw [← hsq, ← e3] at a3
    rw [← e3] at b13 b23
    have q11 : 4 * q 1 ^ 2 = 1 + m 0 - m 4 - m 8 := mul_left_cancel₀ hrr (by linear_combination a1)
    have q22 : 4 * q 2 ^ 2 = 1 - m 0 + m 4 - m 8 := mul_left_cancel₀ hrr (by linear_combination a2)
    have q33 : 4 * q 3 ^ 2 = 1 - m 0 - m 4 + m 8 := mul_left_cancel₀ hrr (by linear_combination a3)
    have q12 : 4 * (q 1 * q 2) = m 1 + m 3 := mul_left_cancel₀ hrr (by linear_combination b12)
    have q13 : 4 * (q 1 * q 3) = m 2 + m 6 := mul_left_cancel₀ hrr (by linear_combination b13)
    have q23 : 4 * (q 2 * q 3) = m 5 + m 7 := mul_left_cancel₀ hrr (by linear_combination b23)
    have q00 : 4 * q 0 ^ 2 = 1 + (m 0 + m 4 + m 8) := by rw [e0]; linear_combination hsq
    have q01 : 4 * (q 0 * q 1) = m 7 - m 5 := by rw [e0]; linear_combination e1
    have q02 : 4 * (q 0 * q 2) = m 2 - m 6 := by rw [e0]; linear_combination e2
    have q03 : 4 * (q 0 * q 3) = m 3 - m 1 := by rw [e0]; linear_combination e3
    have l : toMat 3 m = !![m 0, m 1, m 2; m 3, m 4, m 5; m 6, m 7, m 8] := by
      funext i j
      fin_cases i <;> fin_cases j <;> rfl
    refine ⟨?_, by rw [e0]; linarith, ?_⟩
    · unfold UnitQ; linarith
    · rw [qtoM_mat, l]
      clear a1 a2 a3 b12 b13 b23 e0 e1 e2 e3 h
      apply mat_congr <;> simp only [qtoMElement]
      · linear_combination -(q22 + q33) / 2
      · linear_combination (q12 - q03) / 2
      · linear_combination (q13 + q02) / 2
      · linear_combination (q12 + q03) / 2
      · linear_combination -(q11 + q33) / 2
      · linear_combination (q23 - q01) / 2
      · linear_combination (q13 - q02) / 2
      · linear_combination (q23 + q01) / 2
      · linear_combination -(q11 + q22) / 2
  · simp [ht] at h

/-- No rotation has a trace below minus one. -/
theorem trace_ge (m : Arr ℝ) (ho : toMat 3 m * (toMat 3 m)ᵀ = 1) (hd : (toMat 3 m).det = 1) :
    -1 ≤ m 0 + m 4 + m 8 := by
  obtain ⟨⟨a1, a2, a3⟩, _⟩ := rotation_products m ho hd
  by_contra hlt
  have hT : 1 + (m 0 + m 4 + m 8) < 0 := by linarith
  have h1 : 1 + m 0 - m 4 - m 8 ≤ 0 := by nlinarith [sq_nonneg (m 7 - m 5)]
  have h2 : 1 - m 0 + m 4 - m 8 ≤ 0 := by nlinarith [sq_nonneg (m 2 - m 6)]
  have h3 : 1 - m 0 - m 4 + m 8 ≤ 0 := by nlinarith [sq_nonneg (m 3 - m 1)]
  linarith

/-! ## Rates -/

theorem qdot_entries (q w : Arr ℝ) :
    qdot q w 0 = 1 / 2 * (q 1 * w 0 + q 2 * w 1 + q 3 * w 2) ∧
    qdot q w 1 = 1 / 2 * (-q 0 * w 0 - q 3 * w 1 + q 2 * w 2) ∧
    qdot q w 2 = 1 / 2 * (-q 0 * w 1 + q 3 * w 0 - q 1 * w 2) ∧
    qdot q w 3 = 1 / 2 * (-q 0 * w 2 - q 2 * w 0 + q 1 * w 1) := by
  simp only [qdot, scaleV, addV, multiplyMV, dotV, tail, skew, loop, arr_zero, arr_one, arr_two,
    arr_three]
  simp only [arr]
  refine ⟨?_, ?_, ?_, ?_⟩ <;> simp <;> ring

/-- The rate of a quaternion as a product of Hamilton quaternions. -/
theorem qdot_product (q w : Arr ℝ) :
    toQuat (qdot q w) = (-(1 / 2) : ℝ) • (toQuat (arr [0, w 0, w 1, w 2]) * toQuat q) := by
  obtain ⟨h0, h1, h2, h3⟩ := qdot_entries q w
  ext <;> simp [h0, h1, h2, h3] <;> ring

/-- The transformation matrix turns with the angular velocity. -/
theorem qtoM_deriv (q : ℝ → Arr ℝ) (w : ℝ → Arr ℝ) (t : ℝ) (hu : UnitQ (q t))
    (hq : ∀ i, i < 4 → HasDerivAt (fun s => q s i) (qdot (q t) (w t) i) t) (i j : Fin 3) :
    HasDerivAt (fun s => toMat 3 (qtoM (q s)) i j)
      ((-(toMat 3 (skew (w t))) * toMat 3 (qtoM (q t))) i j) t := by
  obtain ⟨d0, d1, d2, d3⟩ := qdot_entries (q t) (w t)
  have g0 := hq 0 (by norm_num)
  have g1 := hq 1 (by norm_num)
  have g2 := hq 2 (by norm_num)
  have g3 := hq 3 (by norm_num)
  rw [d0] at g0
  rw [d1] at g1
  rw [d2] at g2
  rw [d3] at g3
  unfold UnitQ at hu
  have hk : toMat 3 (skew (w t)) = !![0, -w t 2, w t 1; w t 2, 0, -w t 0; -w t 1, w t 0, 0] := by
    funext i j
    fin_cases i <;> fin_cases j <;> rfl
  rw [hk, qtoM_mat]
  fin_cases i <;> fin_cases j
  · refine (((g2.mul g2).add (g3.mul g3)).const_mul 2 |>.const_sub 1).congr_deriv ?_
    simp [Matrix.mul_apply, Fin.sum_univ_three, qtoMElement]
    ring
  · refine (((g1.mul g2).sub (g0.mul g3)).const_mul 2).congr_deriv ?_
    simp [Matrix.mul_apply, Fin.sum_univ_three, qtoMElement]
    linear_combination (w t 2) * hu
  · refine (((g1.mul g3).add (g0.mul g2)).const_mul 2).congr_deriv ?_
    simp [Matrix.mul_apply, Fin.sum_univ_three, qtoMElement]
    linear_combination (-(w t 1)) * hu
  · refine (((g1.mul g2).add (g0.mul g3)).const_mul 2).congr_deriv ?_
    simp [Matrix.mul_apply, Fin.sum_univ_three, qtoMElement]
    linear_combination (-(w t 2)) * hu
  · refine (((g1.mul g1).add (g3.mul g3)).const_mul 2 |>.const_sub 1).congr_deriv ?_
    simp [Matrix.mul_apply, Fin.sum_univ_three, qtoMElement]
    ring
  · refine (((g2.mul g3).sub (g0.mul g1)).const_mul 2).congr_deriv ?_
    simp [Matrix.mul_apply, Fin.sum_univ_three, qtoMElement]
    linear_combination (w t 0) * hu
  · refine (((g1.mul g3).sub (g0.mul g2)).const_mul 2).congr_deriv ?_
    simp [Matrix.mul_apply, Fin.sum_univ_three, qtoMElement]
    linear_combination (w t 1) * hu
  · refine (((g2.mul g3).add (g0.mul g1)).const_mul 2).congr_deriv ?_
    simp [Matrix.mul_apply, Fin.sum_univ_three, qtoMElement]
    linear_combination (-(w t 0)) * hu
  · refine (((g1.mul g1).add (g2.mul g2)).const_mul 2 |>.const_sub 1).congr_deriv ?_
    simp [Matrix.mul_apply, Fin.sum_univ_three, qtoMElement]
    ring

/-- The magnitude of a quaternion moving at its rate does not change. -/
theorem qdot_norm (q w : Arr ℝ) :
    q 0 * qdot q w 0 + q 1 * qdot q w 1 + q 2 * qdot q w 2 + q 3 * qdot q w 3 = 0 := by
  obtain ⟨h0, h1, h2, h3⟩ := qdot_entries q w
  rw [h0, h1, h2, h3]
  ring

/-! ## Normalization -/

theorem dotV_four (q : Arr ℝ) : dotV q q 4 = q 0 ^ 2 + q 1 ^ 2 + q 2 ^ 2 + q 3 ^ 2 := by
  simp only [dotV, loop]
  ring

theorem normalizeQ_spec (q r : Arr ℝ) (h : normalizeQ q = some r) :
    let n := q 0 ^ 2 + q 1 ^ 2 + q 2 ^ 2 + q 3 ^ 2;
    (∃ f : ℝ, 0 < f ∧ ∀ i, i < 4 → r i = f * q i) ∧
    (quatNormTolerance ≤ |1 - n| → UnitQ r) ∧
    (|1 - n| < quatNormTolerance →
      r 0 ^ 2 + r 1 ^ 2 + r 2 ^ 2 + r 3 ^ 2 = 1 - ((1 - n) / (1 + n)) ^ 2) := by
  intro n
  have hn : dotV q q 4 = n := dotV_four q
  have hn0 : 0 ≤ n := by positivity
  have ent : ∀ f : ℝ, arr [q 0 * f, q 1 * f, q 2 * f, q 3 * f] = r →
      (∀ i, i < 4 → r i = f * q i) ∧
      r 0 ^ 2 + r 1 ^ 2 + r 2 ^ 2 + r 3 ^ 2 = f ^ 2 * n := by
    intro f hf
    subst hf
    constructor
    · intro i hi
      match i, hi with
      | 0, _ => simp only [arr_zero]; ring
      | 1, _ => simp only [arr_one]; ring
      | 2, _ => simp only [arr_two]; ring
      | 3, _ => simp only [arr_three]; ring
    · simp only [arr_zero, arr_one, arr_two, arr_three, n]; ring
  unfold normalizeQ at h
  simp only [hn] at h
  by_cases ht : |1 - n| < quatNormTolerance
  · rw [if_pos ht, Option.some.injEq] at h
    obtain ⟨e1, e2⟩ := ent _ h
    have hp : 0 < 1 + n := by linarith
    refine ⟨⟨_, by positivity, e1⟩, fun hc => absurd ht (not_lt.mpr hc), fun _ => ?_⟩
    rw [e2]
    field_simp
    ring
  · rw [if_neg ht] at h
    by_cases hz : Real.sqrt n = 0
    · rw [if_pos hz] at h
      cases h
    · rw [if_neg hz, Option.some.injEq] at h
      obtain ⟨e1, e2⟩ := ent _ h
      have hp : 0 < Real.sqrt n := lt_of_le_of_ne (Real.sqrt_nonneg _) (Ne.symm hz)
      refine ⟨⟨_, by positivity, e1⟩, fun _ => ?_, fun hc => absurd hc ht⟩
      unfold UnitQ
      rw [e2, div_pow, one_pow, Real.sq_sqrt hn0]
      have : n ≠ 0 := by
        intro h0; apply hz; rw [h0]; exact Real.sqrt_zero
      field_simp

theorem normalizeQ_some (q : Arr ℝ) (i : Nat) (hi : i < 4) (h : q i ≠ 0) :
    ∃ r, normalizeQ q = some r := by
  unfold normalizeQ
  by_cases ht : |1 - dotV q q 4| < quatNormTolerance
  · simp only [if_pos ht]
    exact ⟨_, rfl⟩
  · have hp : 0 < dotV q q 4 := by
      rw [dotV_four]
      match i, hi with
      | 0, _ => positivity
      | 1, _ => positivity
      | 2, _ => positivity
      | 3, _ => positivity
    have hz : Real.sqrt (dotV q q 4) ≠ 0 := (Real.sqrt_pos.mpr hp).ne'
    simp only [if_neg ht, if_neg hz]
    exact ⟨_, rfl⟩

theorem normalizeQ_none (q : Arr ℝ) (h : ∀ i, i < 4 → q i = 0) : normalizeQ q = none := by
  have hz : dotV q q 4 = 0 := by
    rw [dotV_four, h 0 (by norm_num), h 1 (by norm_num), h 2 (by norm_num), h 3 (by norm_num)]
    norm_num
  unfold normalizeQ
  have ht : ¬ |1 - dotV q q 4| < quatNormTolerance := by
    rw [hz]; unfold quatNormTolerance; norm_num
  simp only [if_neg ht]
  rw [if_pos (by rw [hz]; exact Real.sqrt_zero)]

end Gunns.Dyn
