import Verif.Dyn.EulerAngles

set_option linter.unusedSectionVars false

namespace Gunns.Dyn

open Matrix

/-- Sizes of the elements of a transformation matrix near a singularity. -/
theorem core_sing {n0 n1 n2 n3 n4 n5 n6 n7 n8 σ d : ℝ}
    (h1 : n1 = n5 * n6 - n3 * n8) (h2 : n2 = n3 * n7 - n4 * n6)
    (hr : n6 ^ 2 + n7 ^ 2 + n8 ^ 2 = 1) (hl : n0 ^ 2 + n3 ^ 2 + n6 ^ 2 = 1)
    (hm : n3 ^ 2 + n4 ^ 2 + n5 ^ 2 = 1) (hσ : σ ^ 2 = 1) (hσ6 : 0 ≤ σ * n6) (hd : 0 ≤ d)
    (hd2 : 1 - n6 ^ 2 ≤ d ^ 2) :
    |n0| ≤ d ∧ |n3| ≤ d ∧ |n7| ≤ d ∧ |n8| ≤ d ∧ |σ - n6| ≤ d ^ 2 ∧ |n1 - σ * n5| ≤ 2 * d ^ 2 ∧
      |n2 + σ * n4| ≤ 2 * d ^ 2 := by
  have a0 : |n0| ≤ d := abs_le_of_sq_le_sq (by nlinarith) hd
  have a3 : |n3| ≤ d := abs_le_of_sq_le_sq (by nlinarith) hd
  have a7 : |n7| ≤ d := abs_le_of_sq_le_sq (by nlinarith) hd
  have a8 : |n8| ≤ d := abs_le_of_sq_le_sq (by nlinarith) hd
  have a4 : |n4| ≤ 1 := abs_le_of_sq_le_sq (by nlinarith) zero_le_one
  have a5 : |n5| ≤ 1 := abs_le_of_sq_le_sq (by nlinarith) zero_le_one
  have aσ : |σ| = 1 := by rw [← sq_eq_sq₀ (abs_nonneg _) zero_le_one, sq_abs, hσ, one_pow]
  have t : σ * n6 ≤ 1 := by nlinarith [sq_nonneg (σ * n6), mul_pow σ n6 2]
  have a6 : |σ - n6| ≤ d ^ 2 := by
    have e : |σ - n6| = 1 - σ * n6 := by
      have e2 : |σ - n6| = |σ * (σ - n6)| := by rw [abs_mul, aσ, one_mul]
      rw [e2, mul_sub, ← sq, hσ, abs_of_nonneg (by linarith)]
    rw [e]
    nlinarith [mul_pow σ n6 2]
  have p38 : |n3 * n8| ≤ d ^ 2 := by
    rw [abs_mul, sq]; exact mul_le_mul a3 a8 (abs_nonneg _) hd
  have p37 : |n3 * n7| ≤ d ^ 2 := by
    rw [abs_mul, sq]; exact mul_le_mul a3 a7 (abs_nonneg _) hd
  refine ⟨a0, a3, a7, a8, a6, ?_, ?_⟩
  · have e : n1 - σ * n5 = -(n5 * (σ - n6)) - n3 * n8 := by linear_combination h1
    rw [e]
    have : |n5 * (σ - n6)| ≤ d ^ 2 := by
      rw [abs_mul]; nlinarith [abs_nonneg n5, abs_nonneg (σ - n6)]
    calc |-(n5 * (σ - n6)) - n3 * n8| ≤ |-(n5 * (σ - n6))| + |n3 * n8| := abs_sub _ _
      _ ≤ 2 * d ^ 2 := by rw [abs_neg]; linarith
  · have e : n2 + σ * n4 = n4 * (σ - n6) + n3 * n7 := by linear_combination h2
    rw [e]
    have : |n4 * (σ - n6)| ≤ d ^ 2 := by
      rw [abs_mul]; nlinarith [abs_nonneg n4, abs_nonneg (σ - n6)]
    calc |n4 * (σ - n6) + n3 * n7| ≤ |n4 * (σ - n6)| + |n3 * n7| := abs_add_le _ _
      _ ≤ 2 * d ^ 2 := by linarith

/-- Sine and cosine of an arctangent of a pair close to the unit circle. -/
theorem near_unit {y x d : ℝ} (h1 : 1 - d ^ 2 ≤ x ^ 2 + y ^ 2) (h2 : x ^ 2 + y ^ 2 ≤ 1) :
    |Real.sin (atan2 y x) - y| ≤ d ^ 2 ∧ |Real.cos (atan2 y x) - x| ≤ d ^ 2 := by
  obtain ⟨hc, hs⟩ := atan2_polar y x
  have hr := Real.sq_sqrt (show 0 ≤ x ^ 2 + y ^ 2 by positivity)
  have hr0 := Real.sqrt_nonneg (x ^ 2 + y ^ 2)
  generalize Real.sqrt (x ^ 2 + y ^ 2) = r at *
  have hr1 : r ≤ 1 := by nlinarith
  have hd : 1 - r ≤ d ^ 2 := by nlinarith
  have as := Real.abs_sin_le_one (atan2 y x)
  have ac := Real.abs_cos_le_one (atan2 y x)
  constructor
  · rw [show Real.sin (atan2 y x) - y = (1 - r) * Real.sin (atan2 y x) by linear_combination hs,
      abs_mul, abs_of_nonneg (by linarith : (0 : ℝ) ≤ 1 - r)]
    nlinarith [abs_nonneg (Real.sin (atan2 y x))]
  · rw [show Real.cos (atan2 y x) - x = (1 - r) * Real.cos (atan2 y x) by linear_combination hc,
      abs_mul, abs_of_nonneg (by linarith : (0 : ℝ) ≤ 1 - r)]
    nlinarith [abs_nonneg (Real.cos (atan2 y x))]

/-- Three by three matrices are close when their nine elements are. -/
theorem mat_close {a0 a1 a2 a3 a4 a5 a6 a7 a8 b0 b1 b2 b3 b4 b5 b6 b7 b8 d : ℝ}
    (h0 : |a0 - b0| ≤ d) (h1 : |a1 - b1| ≤ d) (h2 : |a2 - b2| ≤ d) (h3 : |a3 - b3| ≤ d)
    (h4 : |a4 - b4| ≤ d) (h5 : |a5 - b5| ≤ d) (h6 : |a6 - b6| ≤ d) (h7 : |a7 - b7| ≤ d)
    (h8 : |a8 - b8| ≤ d) (i j : Fin 3) :
    |!![a0, a1, a2; a3, a4, a5; a6, a7, a8] i j - !![b0, b1, b2; b3, b4, b5; b6, b7, b8] i j|
      ≤ d := by
  fin_cases i <;> fin_cases j <;> simpa

theorem sing_XYZPos (m : Nat → ℝ)
    (k1 : m 1 = m 5 * m 6 - m 3 * m 8) (k2 : m 2 = m 3 * m 7 - m 4 * m 6)
    (hr : m 6 ^ 2 + m 7 ^ 2 + m 8 ^ 2 = 1) (hl : m 0 ^ 2 + m 3 ^ 2 + m 6 ^ 2 = 1) (hm : m 3 ^ 2 + m 4 ^ 2 + m 5 ^ 2 = 1) (hp : m 1 ^ 2 + m 4 ^ 2 + m 7 ^ 2 = 1) (hs : 0 ≤ m 6) {d : ℝ} (hd : 0 ≤ d)
    (hd3 : d ≤ 1 / 3) (hd2 : 1 - m 6 ^ 2 ≤ d ^ 2) (i j : Fin 3) :
    |attitude .XYZ (arr [atan2 (m 1) (m 4), Real.pi / 2, 0]) i j -
      !![m 0, m 1, m 2; m 3, m 4, m 5; m 6, m 7, m 8] i j| ≤ d := by
  obtain ⟨b0, b3, b7, b8, b6, b1, b2⟩ := core_sing (σ := 1) (n0 := m 0) k1 k2
    (by linear_combination hr) (by linear_combination hl) (by linear_combination hm) (by norm_num) (by linarith) hd hd2
  have b := abs_le.mp b7
  obtain ⟨cS, cC⟩ := near_unit (y := m 1) (x := m 4) (d := d) (by nlinarith) (by nlinarith)
  rw [attitude_XYZ rfl rfl (S2 := 1) (by simp) (C2 := 0) (by simp) Real.sin_zero Real.cos_zero]
  generalize Real.sin (atan2 (m 1) (m 4)) = S at *
  generalize Real.cos (atan2 (m 1) (m 4)) = C at *
  have hdd : 3 * d ^ 2 ≤ d := by nlinarith
  have b0 := abs_le.mp b0
  have b1 := abs_le.mp b1
  have b2 := abs_le.mp b2
  have b3 := abs_le.mp b3
  have b6 := abs_le.mp b6
  have b7 := abs_le.mp b7
  have b8 := abs_le.mp b8
  have cS := abs_le.mp cS
  have cC := abs_le.mp cC
  apply mat_close <;> rw [abs_le] <;> constructor <;> linarith

theorem sing_XYZNeg (m : Nat → ℝ)
    (k1 : m 1 = m 5 * m 6 - m 3 * m 8) (k2 : m 2 = m 3 * m 7 - m 4 * m 6)
    (hr : m 6 ^ 2 + m 7 ^ 2 + m 8 ^ 2 = 1) (hl : m 0 ^ 2 + m 3 ^ 2 + m 6 ^ 2 = 1) (hm : m 3 ^ 2 + m 4 ^ 2 + m 5 ^ 2 = 1) (hp : m 1 ^ 2 + m 4 ^ 2 + m 7 ^ 2 = 1) (hs : m 6 ≤ 0) {d : ℝ} (hd : 0 ≤ d)
    (hd3 : d ≤ 1 / 3) (hd2 : 1 - m 6 ^ 2 ≤ d ^ 2) (i j : Fin 3) :
    |attitude .XYZ (arr [atan2 (-m 1) (m 4), -(Real.pi / 2), 0]) i j -
      !![m 0, m 1, m 2; m 3, m 4, m 5; m 6, m 7, m 8] i j| ≤ d := by
  obtain ⟨b0, b3, b7, b8, b6, b1, b2⟩ := core_sing (σ := -1) (n0 := m 0) k1 k2
    (by linear_combination hr) (by linear_combination hl) (by linear_combination hm) (by norm_num) (by linarith) hd hd2
  have b := abs_le.mp b7
  obtain ⟨cS, cC⟩ := near_unit (y := -m 1) (x := m 4) (d := d) (by nlinarith) (by nlinarith)
  rw [attitude_XYZ rfl rfl (S2 := -1) (by simp) (C2 := 0) (by simp) Real.sin_zero Real.cos_zero]
  generalize Real.sin (atan2 (-m 1) (m 4)) = S at *
  generalize Real.cos (atan2 (-m 1) (m 4)) = C at *
  have hdd : 3 * d ^ 2 ≤ d := by nlinarith
  have b0 := abs_le.mp b0
  have b1 := abs_le.mp b1
  have b2 := abs_le.mp b2
  have b3 := abs_le.mp b3
  have b6 := abs_le.mp b6
  have b7 := abs_le.mp b7
  have b8 := abs_le.mp b8
  have cS := abs_le.mp cS
  have cC := abs_le.mp cC
  apply mat_close <;> rw [abs_le] <;> constructor <;> linarith

theorem sing_XZYPos (m : Nat → ℝ)
    (k1 : m 2 = m 7 * m 3 - m 6 * m 4) (k2 : m 1 = m 6 * m 5 - m 8 * m 3)
    (hr : m 3 ^ 2 + m 4 ^ 2 + m 5 ^ 2 = 1) (hl : m 0 ^ 2 + m 3 ^ 2 + m 6 ^ 2 = 1) (hm : m 6 ^ 2 + m 7 ^ 2 + m 8 ^ 2 = 1) (hp : m 0 ^ 2 + m 1 ^ 2 + m 2 ^ 2 = 1) (hs : m 3 ≤ 0) {d : ℝ} (hd : 0 ≤ d)
    (hd3 : d ≤ 1 / 3) (hd2 : 1 - m 3 ^ 2 ≤ d ^ 2) (i j : Fin 3) :
    |attitude .XZY (arr [atan2 (m 2) (m 1), Real.pi / 2, 0]) i j -
      !![m 0, m 1, m 2; m 3, m 4, m 5; m 6, m 7, m 8] i j| ≤ d := by
  obtain ⟨b0, b3, b7, b8, b6, b1, b2⟩ := core_sing (σ := -1) (n0 := m 0) k1 k2
    (by linear_combination hr) (by linear_combination hl) (by linear_combination hm) (by norm_num) (by linarith) hd hd2
  have b := abs_le.mp b0
  obtain ⟨cS, cC⟩ := near_unit (y := m 2) (x := m 1) (d := d) (by nlinarith) (by nlinarith)
  rw [attitude_XZY rfl rfl (S2 := 1) (by simp) (C2 := 0) (by simp) Real.sin_zero Real.cos_zero]
  generalize Real.sin (atan2 (m 2) (m 1)) = S at *
  generalize Real.cos (atan2 (m 2) (m 1)) = C at *
  have hdd : 3 * d ^ 2 ≤ d := by nlinarith
  have b0 := abs_le.mp b0
  have b1 := abs_le.mp b1
  have b2 := abs_le.mp b2
  have b3 := abs_le.mp b3
  have b6 := abs_le.mp b6
  have b7 := abs_le.mp b7
  have b8 := abs_le.mp b8
  have cS := abs_le.mp cS
  have cC := abs_le.mp cC
  apply mat_close <;> rw [abs_le] <;> constructor <;> linarith

theorem sing_XZYNeg (m : Nat → ℝ)
    (k1 : m 2 = m 7 * m 3 - m 6 * m 4) (k2 : m 1 = m 6 * m 5 - m 8 * m 3)
    (hr : m 3 ^ 2 + m 4 ^ 2 + m 5 ^ 2 = 1) (hl : m 0 ^ 2 + m 3 ^ 2 + m 6 ^ 2 = 1) (hm : m 6 ^ 2 + m 7 ^ 2 + m 8 ^ 2 = 1) (hp : m 0 ^ 2 + m 1 ^ 2 + m 2 ^ 2 = 1) (hs : 0 ≤ m 3) {d : ℝ} (hd : 0 ≤ d)
    (hd3 : d ≤ 1 / 3) (hd2 : 1 - m 3 ^ 2 ≤ d ^ 2) (i j : Fin 3) :
    |attitude .XZY (arr [atan2 (-m 2) (-m 1), -(Real.pi / 2), 0]) i j -
      !![m 0, m 1, m 2; m 3, m 4, m 5; m 6, m 7, m 8] i j| ≤ d := by
  obtain ⟨b0, b3, b7, b8, b6, b1, b2⟩ := core_sing (σ := 1) (n0 := m 0) k1 k2
    (by linear_combination hr) (by linear_combination hl) (by linear_combination hm) (by norm_num) (by linarith) hd hd2
  have b := abs_le.mp b0
  obtain ⟨cS, cC⟩ := near_unit (y := -m 2) (x := -m 1) (d := d) (by nlinarith) (by nlinarith)
  rw [attitude_XZY rfl rfl (S2 := -1) (by simp) (C2 := 0) (by simp) Real.sin_zero Real.cos_zero]
  generalize Real.sin (atan2 (-m 2) (-m 1)) = S at *
  generalize Real.cos (atan2 (-m 2) (-m 1)) = C at *
  have hdd : 3 * d ^ 2 ≤ d := by nlinarith
  have b0 := abs_le.mp b0
  have b1 := abs_le.mp b1
  have b2 := abs_le.mp b2
  have b3 := abs_le.mp b3
  have b6 := abs_le.mp b6
  have b7 := abs_le.mp b7
  have b8 := abs_le.mp b8
  have cS := abs_le.mp cS
  have cC := abs_le.mp cC
  apply mat_close <;> rw [abs_le] <;> constructor <;> linarith

theorem sing_YZXPos (m : Nat → ℝ)
    (k1 : m 5 = m 6 * m 1 - m 7 * m 0) (k2 : m 3 = m 7 * m 2 - m 8 * m 1)
    (hr : m 0 ^ 2 + m 1 ^ 2 + m 2 ^ 2 = 1) (hl : m 1 ^ 2 + m 4 ^ 2 + m 7 ^ 2 = 1) (hm : m 6 ^ 2 + m 7 ^ 2 + m 8 ^ 2 = 1) (hs : 0 ≤ m 1) {d : ℝ} (hd : 0 ≤ d)
    (hd3 : d ≤ 1 / 3) (hd2 : 1 - m 1 ^ 2 ≤ d ^ 2) (i j : Fin 3) :
    |attitude .YZX (arr [atan2 (m 6) (m 8), Real.pi / 2, 0]) i j -
      !![m 0, m 1, m 2; m 3, m 4, m 5; m 6, m 7, m 8] i j| ≤ d := by
  obtain ⟨b0, b3, b7, b8, b6, b1, b2⟩ := core_sing (σ := 1) (n0 := m 4) k1 k2
    (by linear_combination hr) (by linear_combination hl) (by linear_combination hm) (by norm_num) (by linarith) hd hd2
  have b := abs_le.mp b3
  obtain ⟨cS, cC⟩ := near_unit (y := m 6) (x := m 8) (d := d) (by nlinarith) (by nlinarith)
  rw [attitude_YZX rfl rfl (S2 := 1) (by simp) (C2 := 0) (by simp) Real.sin_zero Real.cos_zero]
  generalize Real.sin (atan2 (m 6) (m 8)) = S at *
  generalize Real.cos (atan2 (m 6) (m 8)) = C at *
  have hdd : 3 * d ^ 2 ≤ d := by nlinarith
  have b0 := abs_le.mp b0
  have b1 := abs_le.mp b1
  have b2 := abs_le.mp b2
  have b3 := abs_le.mp b3
  have b6 := abs_le.mp b6
  have b7 := abs_le.mp b7
  have b8 := abs_le.mp b8
  have cS := abs_le.mp cS
  have cC := abs_le.mp cC
  apply mat_close <;> rw [abs_le] <;> constructor <;> linarith

theorem sing_YZXNeg (m : Nat → ℝ)
    (k1 : m 5 = m 6 * m 1 - m 7 * m 0) (k2 : m 3 = m 7 * m 2 - m 8 * m 1)
    (hr : m 0 ^ 2 + m 1 ^ 2 + m 2 ^ 2 = 1) (hl : m 1 ^ 2 + m 4 ^ 2 + m 7 ^ 2 = 1) (hm : m 6 ^ 2 + m 7 ^ 2 + m 8 ^ 2 = 1) (hs : m 1 ≤ 0) {d : ℝ} (hd : 0 ≤ d)
    (hd3 : d ≤ 1 / 3) (hd2 : 1 - m 1 ^ 2 ≤ d ^ 2) (i j : Fin 3) :
    |attitude .YZX (arr [atan2 (m 6) (m 8), -(Real.pi / 2), 0]) i j -
      !![m 0, m 1, m 2; m 3, m 4, m 5; m 6, m 7, m 8] i j| ≤ d := by
  obtain ⟨b0, b3, b7, b8, b6, b1, b2⟩ := core_sing (σ := -1) (n0 := m 4) k1 k2
    (by linear_combination hr) (by linear_combination hl) (by linear_combination hm) (by norm_num) (by linarith) hd hd2
  have b := abs_le.mp b3
  obtain ⟨cS, cC⟩ := near_unit (y := m 6) (x := m 8) (d := d) (by nlinarith) (by nlinarith)
  rw [attitude_YZX rfl rfl (S2 := -1) (by simp) (C2 := 0) (by simp) Real.sin_zero Real.cos_zero]
  generalize Real.sin (atan2 (m 6) (m 8)) = S at *
  generalize Real.cos (atan2 (m 6) (m 8)) = C at *
  have hdd : 3 * d ^ 2 ≤ d := by nlinarith
  have b0 := abs_le.mp b0
  have b1 := abs_le.mp b1
  have b2 := abs_le.mp b2
  have b3 := abs_le.mp b3
  have b6 := abs_le.mp b6
  have b7 := abs_le.mp b7
  have b8 := abs_le.mp b8
  have cS := abs_le.mp cS
  have cC := abs_le.mp cC
  apply mat_close <;> rw [abs_le] <;> constructor <;> linarith

theorem sing_YXZPos (m : Nat → ℝ)
    (k1 : m 3 = m 2 * m 7 - m 1 * m 8) (k2 : m 5 = m 1 * m 6 - m 0 * m 7)
    (hr : m 6 ^ 2 + m 7 ^ 2 + m 8 ^ 2 = 1) (hl : m 1 ^ 2 + m 4 ^ 2 + m 7 ^ 2 = 1) (hm : m 0 ^ 2 + m 1 ^ 2 + m 2 ^ 2 = 1) (hp : m 0 ^ 2 + m 3 ^ 2 + m 6 ^ 2 = 1) (hs : m 7 ≤ 0) {d : ℝ} (hd : 0 ≤ d)
    (hd3 : d ≤ 1 / 3) (hd2 : 1 - m 7 ^ 2 ≤ d ^ 2) (i j : Fin 3) :
    |attitude .YXZ (arr [atan2 (m 3) (m 0), Real.pi / 2, 0]) i j -
      !![m 0, m 1, m 2; m 3, m 4, m 5; m 6, m 7, m 8] i j| ≤ d := by
  obtain ⟨b0, b3, b7, b8, b6, b1, b2⟩ := core_sing (σ := -1) (n0 := m 4) k1 k2
    (by linear_combination hr) (by linear_combination hl) (by linear_combination hm) (by norm_num) (by linarith) hd hd2
  have b := abs_le.mp b7
  obtain ⟨cS, cC⟩ := near_unit (y := m 3) (x := m 0) (d := d) (by nlinarith) (by nlinarith)
  rw [attitude_YXZ rfl rfl (S2 := 1) (by simp) (C2 := 0) (by simp) Real.sin_zero Real.cos_zero]
  generalize Real.sin (atan2 (m 3) (m 0)) = S at *
  generalize Real.cos (atan2 (m 3) (m 0)) = C at *
  have hdd : 3 * d ^ 2 ≤ d := by nlinarith
  have b0 := abs_le.mp b0
  have b1 := abs_le.mp b1
  have b2 := abs_le.mp b2
  have b3 := abs_le.mp b3
  have b6 := abs_le.mp b6
  have b7 := abs_le.mp b7
  have b8 := abs_le.mp b8
  have cS := abs_le.mp cS
  have cC := abs_le.mp cC
  apply mat_close <;> rw [abs_le] <;> constructor <;> linarith

theorem sing_YXZNeg (m : Nat → ℝ)
    (k1 : m 3 = m 2 * m 7 - m 1 * m 8) (k2 : m 5 = m 1 * m 6 - m 0 * m 7)
    (hr : m 6 ^ 2 + m 7 ^ 2 + m 8 ^ 2 = 1) (hl : m 1 ^ 2 + m 4 ^ 2 + m 7 ^ 2 = 1) (hm : m 0 ^ 2 + m 1 ^ 2 + m 2 ^ 2 = 1) (hp : m 0 ^ 2 + m 3 ^ 2 + m 6 ^ 2 = 1) (hs : 0 ≤ m 7) {d : ℝ} (hd : 0 ≤ d)
    (hd3 : d ≤ 1 / 3) (hd2 : 1 - m 7 ^ 2 ≤ d ^ 2) (i j : Fin 3) :
    |attitude .YXZ (arr [atan2 (-m 3) (m 0), -(Real.pi / 2), 0]) i j -
      !![m 0, m 1, m 2; m 3, m 4, m 5; m 6, m 7, m 8] i j| ≤ d := by
  obtain ⟨b0, b3, b7, b8, b6, b1, b2⟩ := core_sing (σ := 1) (n0 := m 4) k1 k2
    (by linear_combination hr) (by linear_combination hl) (by linear_combination hm) (by norm_num) (by linarith) hd hd2
  have b := abs_le.mp b7
  obtain ⟨cS, cC⟩ := near_unit (y := -m 3) (x := m 0) (d := d) (by nlinarith) (by nlinarith)
  rw [attitude_YXZ rfl rfl (S2 := -1) (by simp) (C2 := 0) (by simp) Real.sin_zero Real.cos_zero]
  generalize Real.sin (atan2 (-m 3) (m 0)) = S at *
  generalize Real.cos (atan2 (-m 3) (m 0)) = C at *
  have hdd : 3 * d ^ 2 ≤ d := by nlinarith
  have b0 := abs_le.mp b0
  have b1 := abs_le.mp b1
  have b2 := abs_le.mp b2
  have b3 := abs_le.mp b3
  have b6 := abs_le.mp b6
  have b7 := abs_le.mp b7
  have b8 := abs_le.mp b8
  have cS := abs_le.mp cS
  have cC := abs_le.mp cC
  apply mat_close <;> rw [abs_le] <;> constructor <;> linarith

theorem sing_ZXYPos (m : Nat → ℝ)
    (k1 : m 6 = m 1 * m 5 - m 2 * m 4) (k2 : m 7 = m 2 * m 3 - m 0 * m 5)
    (hr : m 3 ^ 2 + m 4 ^ 2 + m 5 ^ 2 = 1) (hl : m 2 ^ 2 + m 5 ^ 2 + m 8 ^ 2 = 1) (hm : m 0 ^ 2 + m 1 ^ 2 + m 2 ^ 2 = 1) (hs : 0 ≤ m 5) {d : ℝ} (hd : 0 ≤ d)
    (hd3 : d ≤ 1 / 3) (hd2 : 1 - m 5 ^ 2 ≤ d ^ 2) (i j : Fin 3) :
    |attitude .ZXY (arr [atan2 (m 1) (m 0), Real.pi / 2, 0]) i j -
      !![m 0, m 1, m 2; m 3, m 4, m 5; m 6, m 7, m 8] i j| ≤ d := by
  obtain ⟨b0, b3, b7, b8, b6, b1, b2⟩ := core_sing (σ := 1) (n0 := m 8) k1 k2
    (by linear_combination hr) (by linear_combination hl) (by linear_combination hm) (by norm_num) (by linarith) hd hd2
  have b := abs_le.mp b3
  obtain ⟨cS, cC⟩ := near_unit (y := m 1) (x := m 0) (d := d) (by nlinarith) (by nlinarith)
  rw [attitude_ZXY rfl rfl (S2 := 1) (by simp) (C2 := 0) (by simp) Real.sin_zero Real.cos_zero]
  generalize Real.sin (atan2 (m 1) (m 0)) = S at *
  generalize Real.cos (atan2 (m 1) (m 0)) = C at *
  have hdd : 3 * d ^ 2 ≤ d := by nlinarith
  have b0 := abs_le.mp b0
  have b1 := abs_le.mp b1
  have b2 := abs_le.mp b2
  have b3 := abs_le.mp b3
  have b6 := abs_le.mp b6
  have b7 := abs_le.mp b7
  have b8 := abs_le.mp b8
  have cS := abs_le.mp cS
  have cC := abs_le.mp cC
  apply mat_close <;> rw [abs_le] <;> constructor <;> linarith

theorem sing_ZXYNeg (m : Nat → ℝ)
    (k1 : m 6 = m 1 * m 5 - m 2 * m 4) (k2 : m 7 = m 2 * m 3 - m 0 * m 5)
    (hr : m 3 ^ 2 + m 4 ^ 2 + m 5 ^ 2 = 1) (hl : m 2 ^ 2 + m 5 ^ 2 + m 8 ^ 2 = 1) (hm : m 0 ^ 2 + m 1 ^ 2 + m 2 ^ 2 = 1) (hs : m 5 ≤ 0) {d : ℝ} (hd : 0 ≤ d)
    (hd3 : d ≤ 1 / 3) (hd2 : 1 - m 5 ^ 2 ≤ d ^ 2) (i j : Fin 3) :
    |attitude .ZXY (arr [atan2 (m 1) (m 0), -(Real.pi / 2), 0]) i j -
      !![m 0, m 1, m 2; m 3, m 4, m 5; m 6, m 7, m 8] i j| ≤ d := by
  obtain ⟨b0, b3, b7, b8, b6, b1, b2⟩ := core_sing (σ := -1) (n0 := m 8) k1 k2
    (by linear_combination hr) (by linear_combination hl) (by linear_combination hm) (by norm_num) (by linarith) hd hd2
  have b := abs_le.mp b3
  obtain ⟨cS, cC⟩ := near_unit (y := m 1) (x := m 0) (d := d) (by nlinarith) (by nlinarith)
  rw [attitude_ZXY rfl rfl (S2 := -1) (by simp) (C2 := 0) (by simp) Real.sin_zero Real.cos_zero]
  generalize Real.sin (atan2 (m 1) (m 0)) = S at *
  generalize Real.cos (atan2 (m 1) (m 0)) = C at *
  have hdd : 3 * d ^ 2 ≤ d := by nlinarith
  have b0 := abs_le.mp b0
  have b1 := abs_le.mp b1
  have b2 := abs_le.mp b2
  have b3 := abs_le.mp b3
  have b6 := abs_le.mp b6
  have b7 := abs_le.mp b7
  have b8 := abs_le.mp b8
  have cS := abs_le.mp cS
  have cC := abs_le.mp cC
  apply mat_close <;> rw [abs_le] <;> constructor <;> linarith

theorem sing_ZYXPos (m : Nat → ℝ)
    (k1 : m 7 = m 3 * m 2 - m 5 * m 0) (k2 : m 6 = m 5 * m 1 - m 4 * m 2)
    (hr : m 0 ^ 2 + m 1 ^ 2 + m 2 ^ 2 = 1) (hl : m 2 ^ 2 + m 5 ^ 2 + m 8 ^ 2 = 1) (hm : m 3 ^ 2 + m 4 ^ 2 + m 5 ^ 2 = 1) (hp : m 6 ^ 2 + m 7 ^ 2 + m 8 ^ 2 = 1) (hs : m 2 ≤ 0) {d : ℝ} (hd : 0 ≤ d)
    (hd3 : d ≤ 1 / 3) (hd2 : 1 - m 2 ^ 2 ≤ d ^ 2) (i j : Fin 3) :
    |attitude .ZYX (arr [atan2 (m 7) (m 6), Real.pi / 2, 0]) i j -
      !![m 0, m 1, m 2; m 3, m 4, m 5; m 6, m 7, m 8] i j| ≤ d := by
  obtain ⟨b0, b3, b7, b8, b6, b1, b2⟩ := core_sing (σ := -1) (n0 := m 8) k1 k2
    (by linear_combination hr) (by linear_combination hl) (by linear_combination hm) (by norm_num) (by linarith) hd hd2
  have b := abs_le.mp b0
  obtain ⟨cS, cC⟩ := near_unit (y := m 7) (x := m 6) (d := d) (by nlinarith) (by nlinarith)
  rw [attitude_ZYX rfl rfl (S2 := 1) (by simp) (C2 := 0) (by simp) Real.sin_zero Real.cos_zero]
  generalize Real.sin (atan2 (m 7) (m 6)) = S at *
  generalize Real.cos (atan2 (m 7) (m 6)) = C at *
  have hdd : 3 * d ^ 2 ≤ d := by nlinarith
  have b0 := abs_le.mp b0
  have b1 := abs_le.mp b1
  have b2 := abs_le.mp b2
  have b3 := abs_le.mp b3
  have b6 := abs_le.mp b6
  have b7 := abs_le.mp b7
  have b8 := abs_le.mp b8
  have cS := abs_le.mp cS
  have cC := abs_le.mp cC
  apply mat_close <;> rw [abs_le] <;> constructor <;> linarith

theorem sing_ZYXNeg (m : Nat → ℝ)
    (k1 : m 7 = m 3 * m 2 - m 5 * m 0) (k2 : m 6 = m 5 * m 1 - m 4 * m 2)
    (hr : m 0 ^ 2 + m 1 ^ 2 + m 2 ^ 2 = 1) (hl : m 2 ^ 2 + m 5 ^ 2 + m 8 ^ 2 = 1) (hm : m 3 ^ 2 + m 4 ^ 2 + m 5 ^ 2 = 1) (hp : m 6 ^ 2 + m 7 ^ 2 + m 8 ^ 2 = 1) (hs : 0 ≤ m 2) {d : ℝ} (hd : 0 ≤ d)
    (hd3 : d ≤ 1 / 3) (hd2 : 1 - m 2 ^ 2 ≤ d ^ 2) (i j : Fin 3) :
    |attitude .ZYX (arr [atan2 (-m 7) (-m 6), -(Real.pi / 2), 0]) i j -
      !![m 0, m 1, m 2; m 3, m 4, m 5; m 6, m 7, m 8] i j| ≤ d := by
  obtain ⟨b0, b3, b7, b8, b6, b1, b2⟩ := core_sing (σ := 1) (n0 := m 8) k1 k2
    (by linear_combination hr) (by linear_combination hl) (by linear_combination hm) (by norm_num) (by linarith) hd hd2
  have b := abs_le.mp b0
  obtain ⟨cS, cC⟩ := near_unit (y := -m 7) (x := -m 6) (d := d) (by nlinarith) (by nlinarith)
  rw [attitude_ZYX rfl rfl (S2 := -1) (by simp) (C2 := 0) (by simp) Real.sin_zero Real.cos_zero]
  generalize Real.sin (atan2 (-m 7) (-m 6)) = S at *
  generalize Real.cos (atan2 (-m 7) (-m 6)) = C at *
  have hdd : 3 * d ^ 2 ≤ d := by nlinarith
  have b0 := abs_le.mp b0
  have b1 := abs_le.mp b1
  have b2 := abs_le.mp b2
  have b3 := abs_le.mp b3
  have b6 := abs_le.mp b6
  have b7 := abs_le.mp b7
  have b8 := abs_le.mp b8
  have cS := abs_le.mp cS
  have cC := abs_le.mp cC
  apply mat_close <;> rw [abs_le] <;> constructor <;> linarith

theorem singPos_attitude (e : Seq) (q : Arr ℝ) (h : UnitQ q) {d : ℝ} (hd : 0 ≤ d)
    (hd3 : d ≤ 1 / 3) (hd2 : 1 - computeRot2Sin e q ^ 2 ≤ d ^ 2)
    (hs : 0 ≤ computeRot2Sin e q) (i j : Fin 3) :
    |attitude e (computeAnglesPosSing e q) i j - toMat 3 (qtoM q) i j| ≤ d := by
  obtain ⟨k0, k1, k2, k3, k4, k5, k6, k7, k8⟩ := qtoM_cofactors q h
  obtain ⟨r0, r1, r2, l0, l1, l2⟩ := qtoM_lengths q h
  rw [qtoM_mat]
  cases e <;> simp only [computeRot2Sin] at hs hd2
  · exact sing_XYZPos (qtoMElement q) (by linear_combination k1) (by linear_combination k2)
      (by linear_combination r2) (by linear_combination l0) (by linear_combination r1)
      (by linear_combination l1) (by linarith) hd hd3 (by linarith) i j
  · exact sing_XZYPos (qtoMElement q) (by linear_combination k2) (by linear_combination k1)
      (by linear_combination r1) (by linear_combination l0) (by linear_combination r2)
      (by linear_combination r0) (by linarith) hd hd3 (by linarith) i j
  · exact sing_YZXPos (qtoMElement q) (by linear_combination k5) (by linear_combination k3)
      (by linear_combination r0) (by linear_combination l1) (by linear_combination r2)
      (by linarith) hd hd3 (by linarith) i j
  · exact sing_YXZPos (qtoMElement q) (by linear_combination k3) (by linear_combination k5)
      (by linear_combination r2) (by linear_combination l1) (by linear_combination r0)
      (by linear_combination l0) (by linarith) hd hd3 (by linarith) i j
  · exact sing_ZXYPos (qtoMElement q) (by linear_combination k6) (by linear_combination k7)
      (by linear_combination r1) (by linear_combination l2) (by linear_combination r0)
      (by linarith) hd hd3 (by linarith) i j
  · exact sing_ZYXPos (qtoMElement q) (by linear_combination k7) (by linear_combination k6)
      (by linear_combination r0) (by linear_combination l2) (by linear_combination r1)
      (by linear_combination r2) (by linarith) hd hd3 (by linarith) i j

theorem singNeg_attitude (e : Seq) (q : Arr ℝ) (h : UnitQ q) {d : ℝ} (hd : 0 ≤ d)
    (hd3 : d ≤ 1 / 3) (hd2 : 1 - computeRot2Sin e q ^ 2 ≤ d ^ 2)
    (hs : computeRot2Sin e q ≤ 0) (i j : Fin 3) :
    |attitude e (computeAnglesNegSing e q) i j - toMat 3 (qtoM q) i j| ≤ d := by
  obtain ⟨k0, k1, k2, k3, k4, k5, k6, k7, k8⟩ := qtoM_cofactors q h
  obtain ⟨r0, r1, r2, l0, l1, l2⟩ := qtoM_lengths q h
  rw [qtoM_mat]
  cases e <;> simp only [computeRot2Sin] at hs hd2
  · exact sing_XYZNeg (qtoMElement q) (by linear_combination k1) (by linear_combination k2)
      (by linear_combination r2) (by linear_combination l0) (by linear_combination r1)
      (by linear_combination l1) (by linarith) hd hd3 (by linarith) i j
  · exact sing_XZYNeg (qtoMElement q) (by linear_combination k2) (by linear_combination k1)
      (by linear_combination r1) (by linear_combination l0) (by linear_combination r2)
      (by linear_combination r0) (by linarith) hd hd3 (by linarith) i j
  · exact sing_YZXNeg (qtoMElement q) (by linear_combination k5) (by linear_combination k3)
      (by linear_combination r0) (by linear_combination l1) (by linear_combination r2)
      (by linarith) hd hd3 (by linarith) i j
  · exact sing_YXZNeg (qtoMElement q) (by linear_combination k3) (by linear_combination k5)
      (by linear_combination r2) (by linear_combination l1) (by linear_combination r0)
      (by linear_combination l0) (by linarith) hd hd3 (by linarith) i j
  · exact sing_ZXYNeg (qtoMElement q) (by linear_combination k6) (by linear_combination k7)
      (by linear_combination r1) (by linear_combination l2) (by linear_combination r0)
      (by linarith) hd hd3 (by linarith) i j
  · exact sing_ZYXNeg (qtoMElement q) (by linear_combination k7) (by linear_combination k6)
      (by linear_combination r0) (by linear_combination l2) (by linear_combination r1)
      (by linear_combination r2) (by linarith) hd hd3 (by linarith) i j

end Gunns.Dyn
