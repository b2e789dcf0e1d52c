import Verif.Dyn.EulerLemmas

set_option linter.unusedSectionVars false

namespace Gunns.Dyn

open Matrix

/-! ## The four-quadrant arctangent -/

theorem atan2_polar (y x : ℝ) :
    Real.sqrt (x ^ 2 + y ^ 2) * Real.cos (atan2 y x) = x ∧
      Real.sqrt (x ^ 2 + y ^ 2) * Real.sin (atan2 y x) = y := by
  have hn : ‖(⟨x, y⟩ : ℂ)‖ = Real.sqrt (x ^ 2 + y ^ 2) := by
    rw [Complex.norm_eq_sqrt_sq_add_sq]
  unfold atan2
  rw [← hn]
  exact ⟨Complex.norm_mul_cos_arg ⟨x, y⟩, Complex.norm_mul_sin_arg ⟨x, y⟩⟩

theorem atan2_of_polar {r θ : ℝ} (hr : 0 < r) (h1 : -Real.pi < θ) (h2 : θ ≤ Real.pi) :
    atan2 (r * Real.sin θ) (r * Real.cos θ) = θ := by
  have h := Complex.arg_mul_cos_add_sin_mul_I hr (θ := θ) ⟨h1, h2⟩
  unfold atan2
  refine Eq.trans ?_ h
  congr 1
  apply Complex.ext <;> simp [Complex.cos_ofReal_re, Complex.sin_ofReal_re,
    Complex.cos_ofReal_im, Complex.sin_ofReal_im]

theorem atan2_mem (y x : ℝ) : -Real.pi < atan2 y x ∧ atan2 y x ≤ Real.pi :=
  ⟨Complex.neg_pi_lt_arg _, Complex.arg_le_pi _⟩

/-! ## From quaternions to angles -/

/-- The four elements of a transformation matrix that the angles are not read from. -/
theorem core_noSing {n0 n1 n2 n3 n4 n5 n6 n7 n8 c C1 S1 C3 S3 : ℝ}
    (h1 : n1 = n5 * n6 - n3 * n8) (h5 : n5 = n1 * n6 - n0 * n7)
    (h4 : n4 = n0 * n8 - n2 * n6) (h2 : n2 = n3 * n7 - n4 * n6)
    (hc : c ≠ 0) (hc2 : c ^ 2 = 1 - n6 ^ 2)
    (hC1 : c * C1 = n8) (hS1 : c * S1 = -n7) (hC3 : c * C3 = n0) (hS3 : c * S3 = -n3) :
    n1 = C3 * n6 * S1 + S3 * C1 ∧ n2 = S3 * S1 - C3 * n6 * C1 ∧
      n4 = C3 * C1 - S3 * n6 * S1 ∧ n5 = S3 * n6 * C1 + C3 * S1 := by
  have hcc : c ^ 2 ≠ 0 := pow_ne_zero 2 hc
  subst hC1 hC3
  have e7 : n7 = -(c * S1) := by linarith
  have e3 : n3 = -(c * S3) := by linarith
  subst e7 e3
  refine ⟨?_, ?_, ?_, ?_⟩ <;> apply mul_left_cancel₀ hcc
  · linear_combination n1 * hc2 + h1 + n6 * h5
  · linear_combination n2 * hc2 + h2 - n6 * h4
  · linear_combination n4 * hc2 + h4 - n6 * h2
  · linear_combination n5 * hc2 + h5 + n6 * h1

/-- Three by three matrices are equal when their nine elements are. -/
theorem mat_congr {a0 a1 a2 a3 a4 a5 a6 a7 a8 b0 b1 b2 b3 b4 b5 b6 b7 b8 : ℝ}
    (h0 : a0 = b0) (h1 : a1 = b1) (h2 : a2 = b2) (h3 : a3 = b3) (h4 : a4 = b4) (h5 : a5 = b5)
    (h6 : a6 = b6) (h7 : a7 = b7) (h8 : a8 = b8) :
    !![a0, a1, a2; a3, a4, a5; a6, a7, a8] = !![b0, b1, b2; b3, b4, b5; b6, b7, b8] := by
  rw [h0, h1, h2, h3, h4, h5, h6, h7, h8]

theorem attitude_XYZ {x y z : ℝ} {S1 C1 S2 C2 S3 C3 : ℝ}
    (hs1 : Real.sin x = S1) (hc1 : Real.cos x = C1) (hs2 : Real.sin y = S2)
    (hc2 : Real.cos y = C2) (hs3 : Real.sin z = S3) (hc3 : Real.cos z = C3) :
    attitude .XYZ (arr [x, y, z]) =
      !![C3 * C2, C3 * S2 * S1 + S3 * C1, S3 * S1 - C3 * S2 * C1;
         -(S3 * C2), C3 * C1 - S3 * S2 * S1, S3 * S2 * C1 + C3 * S1;
         S2, -(S1 * C2), C1 * C2] := by
  simp only [attitude, axes, rot, arr_zero, arr_one, arr_two, hs1, hc1, hs2, hc2, hs3, hc3]
  funext i j
  fin_cases i <;> fin_cases j <;> simp [Matrix.mul_apply, Fin.sum_univ_three] <;> ring

theorem attitude_XZY {x y z : ℝ} {S1 C1 S2 C2 S3 C3 : ℝ}
    (hs1 : Real.sin x = S1) (hc1 : Real.cos x = C1) (hs2 : Real.sin y = S2)
    (hc2 : Real.cos y = C2) (hs3 : Real.sin z = S3) (hc3 : Real.cos z = C3) :
    attitude .XZY (arr [x, y, z]) =
      !![C3 * C2, S3 * S1 + C3 * S2 * C1, C3 * S2 * S1 - S3 * C1;
         -S2, C1 * C2, S1 * C2;
         S3 * C2, S3 * S2 * C1 - C3 * S1, C3 * C1 + S3 * S2 * S1] := by
  simp only [attitude, axes, rot, arr_zero, arr_one, arr_two, hs1, hc1, hs2, hc2, hs3, hc3]
  funext i j
  fin_cases i <;> fin_cases j <;> simp [Matrix.mul_apply, Fin.sum_univ_three] <;> ring

theorem attitude_YZX {x y z : ℝ} {S1 C1 S2 C2 S3 C3 : ℝ}
    (hs1 : Real.sin x = S1) (hc1 : Real.cos x = C1) (hs2 : Real.sin y = S2)
    (hc2 : Real.cos y = C2) (hs3 : Real.sin z = S3) (hc3 : Real.cos z = C3) :
    attitude .YZX (arr [x, y, z]) =
      !![C1 * C2, S2, -(S1 * C2);
         S3 * S1 - C3 * S2 * C1, C3 * C2, C3 * S2 * S1 + S3 * C1;
         S3 * S2 * C1 + C3 * S1, -(S3 * C2), C3 * C1 - S3 * S2 * S1] := by
  simp only [attitude, axes, rot, arr_zero, arr_one, arr_two, hs1, hc1, hs2, hc2, hs3, hc3]
  funext i j
  fin_cases i <;> fin_cases j <;> simp [Matrix.mul_apply, Fin.sum_univ_three] <;> ring

theorem attitude_YXZ {x y z : ℝ} {S1 C1 S2 C2 S3 C3 : ℝ}
    (hs1 : Real.sin x = S1) (hc1 : Real.cos x = C1) (hs2 : Real.sin y = S2)
    (hc2 : Real.cos y = C2) (hs3 : Real.sin z = S3) (hc3 : Real.cos z = C3) :
    attitude .YXZ (arr [x, y, z]) =
      !![C3 * C1 + S3 * S2 * S1, S3 * C2, S3 * S2 * C1 - C3 * S1;
         C3 * S2 * S1 - S3 * C1, C3 * C2, S3 * S1 + C3 * S2 * C1;
         S1 * C2, -S2, C1 * C2] := by
  simp only [attitude, axes, rot, arr_zero, arr_one, arr_two, hs1, hc1, hs2, hc2, hs3, hc3]
  funext i j
  fin_cases i <;> fin_cases j <;> simp [Matrix.mul_apply, Fin.sum_univ_three] <;> ring

theorem attitude_ZXY {x y z : ℝ} {S1 C1 S2 C2 S3 C3 : ℝ}
    (hs1 : Real.sin x = S1) (hc1 : Real.cos x = C1) (hs2 : Real.sin y = S2)
    (hc2 : Real.cos y = C2) (hs3 : Real.sin z = S3) (hc3 : Real.cos z = C3) :
    attitude .ZXY (arr [x, y, z]) =
      !![C3 * C1 - S3 * S2 * S1, S3 * S2 * C1 + C3 * S1, -(S3 * C2);
         -(S1 * C2), C1 * C2, S2;
         C3 * S2 * S1 + S3 * C1, S3 * S1 - C3 * S2 * C1, C3 * C2] := by
  simp only [attitude, axes, rot, arr_zero, arr_one, arr_two, hs1, hc1, hs2, hc2, hs3, hc3]
  funext i j
  fin_cases i <;> fin_cases j <;> simp [Matrix.mul_apply, Fin.sum_univ_three] <;> ring

theorem attitude_ZYX {x y z : ℝ} {S1 C1 S2 C2 S3 C3 : ℝ}
    (hs1 : Real.sin x = S1) (hc1 : Real.cos x = C1) (hs2 : Real.sin y = S2)
    (hc2 : Real.cos y = C2) (hs3 : Real.sin z = S3) (hc3 : Real.cos z = C3) :
    attitude .ZYX (arr [x, y, z]) =
      !![C1 * C2, S1 * C2, -S2;
         S3 * S2 * C1 - C3 * S1, C3 * C1 + S3 * S2 * S1, S3 * C2;
         S3 * S1 + C3 * S2 * C1, C3 * S2 * S1 - S3 * C1, C3 * C2] := by
  simp only [attitude, axes, rot, arr_zero, arr_one, arr_two, hs1, hc1, hs2, hc2, hs3, hc3]
  funext i j
  fin_cases i <;> fin_cases j <;> simp [Matrix.mul_apply, Fin.sum_univ_three] <;> ring

theorem noSing_XYZ (m : Nat → ℝ)
    (k1 : m 1 = m 5 * m 6 - m 3 * m 8) (k5 : m 5 = m 1 * m 6 - m 0 * m 7)
    (k4 : m 4 = m 0 * m 8 - m 2 * m 6) (k2 : m 2 = m 3 * m 7 - m 4 * m 6)
    (hr : m 6 ^ 2 + m 7 ^ 2 + m 8 ^ 2 = 1) (hl : m 0 ^ 2 + m 3 ^ 2 + m 6 ^ 2 = 1) (hs : |m 6| < 1) :
    attitude .XYZ (arr [atan2 (-m 7) (m 8), Real.arcsin (m 6), atan2 (-m 3) (m 0)]) =
      !![m 0, m 1, m 2; m 3, m 4, m 5; m 6, m 7, m 8] := by
  have hab := abs_lt.mp hs
  have hsin := Real.sin_arcsin hab.1.le hab.2.le
  have hcos := Real.cos_arcsin (m 6)
  have hpos : 0 < 1 - (m 6) ^ 2 := by nlinarith
  have hc : Real.sqrt (1 - (m 6) ^ 2) ≠ 0 := (Real.sqrt_pos.mpr hpos).ne'
  have hc2 := Real.sq_sqrt hpos.le
  obtain ⟨hC1, hS1⟩ := atan2_polar (-m 7) (m 8)
  obtain ⟨hC3, hS3⟩ := atan2_polar (-m 3) (m 0)
  rw [show (m 8) ^ 2 + (-m 7) ^ 2 = 1 - (m 6) ^ 2 by linear_combination hr] at hC1 hS1
  rw [show (m 0) ^ 2 + (-m 3) ^ 2 = 1 - (m 6) ^ 2 by linear_combination hl] at hC3 hS3
  rw [attitude_XYZ rfl rfl hsin hcos rfl rfl]
  generalize Real.sqrt (1 - (m 6) ^ 2) = C at *
  generalize Real.cos (atan2 (-m 7) (m 8)) = C1 at *
  generalize Real.sin (atan2 (-m 7) (m 8)) = S1 at *
  generalize Real.cos (atan2 (-m 3) (m 0)) = C3 at *
  generalize Real.sin (atan2 (-m 3) (m 0)) = S3 at *
  obtain ⟨e1, e2, e4, e5⟩ := core_noSing (n6 := m 6) (c := C) (C1 := C1) (S1 := S1) (C3 := C3)
    (S3 := S3) k1 k5 k4 k2 hc (by linear_combination hc2) hC1 (by linear_combination hS1) hC3
    (by linear_combination hS3)
  apply mat_congr
  · linear_combination hC3
  · linear_combination -e1
  · linear_combination -e2
  · linear_combination -hS3
  · linear_combination -e4
  · linear_combination -e5
  · ring
  · linear_combination -hS1
  · linear_combination hC1

theorem noSing_XZY (m : Nat → ℝ)
    (k1 : m 2 = m 7 * m 3 - m 6 * m 4) (k5 : m 7 = m 2 * m 3 - m 0 * m 5)
    (k4 : m 8 = m 0 * m 4 - m 1 * m 3) (k2 : m 1 = m 6 * m 5 - m 8 * m 3)
    (hr : m 3 ^ 2 + m 4 ^ 2 + m 5 ^ 2 = 1) (hl : m 0 ^ 2 + m 3 ^ 2 + m 6 ^ 2 = 1) (hs : |-m 3| < 1) :
    attitude .XZY (arr [atan2 (m 5) (m 4), Real.arcsin (-m 3), atan2 (m 6) (m 0)]) =
      !![m 0, m 1, m 2; m 3, m 4, m 5; m 6, m 7, m 8] := by
  have hab := abs_lt.mp hs
  have hsin := Real.sin_arcsin hab.1.le hab.2.le
  have hcos := Real.cos_arcsin (-m 3)
  have hpos : 0 < 1 - (-m 3) ^ 2 := by nlinarith
  have hc : Real.sqrt (1 - (-m 3) ^ 2) ≠ 0 := (Real.sqrt_pos.mpr hpos).ne'
  have hc2 := Real.sq_sqrt hpos.le
  obtain ⟨hC1, hS1⟩ := atan2_polar (m 5) (m 4)
  obtain ⟨hC3, hS3⟩ := atan2_polar (m 6) (m 0)
  rw [show (m 4) ^ 2 + (m 5) ^ 2 = 1 - (-m 3) ^ 2 by linear_combination hr] at hC1 hS1
  rw [show (m 0) ^ 2 + (m 6) ^ 2 = 1 - (-m 3) ^ 2 by linear_combination hl] at hC3 hS3
  rw [attitude_XZY rfl rfl hsin hcos rfl rfl]
  generalize Real.sqrt (1 - (-m 3) ^ 2) = C at *
  generalize Real.cos (atan2 (m 5) (m 4)) = C1 at *
  generalize Real.sin (atan2 (m 5) (m 4)) = S1 at *
  generalize Real.cos (atan2 (m 6) (m 0)) = C3 at *
  generalize Real.sin (atan2 (m 6) (m 0)) = S3 at *
  obtain ⟨e1, e2, e4, e5⟩ := core_noSing (n6 := m 3) (c := C) (C1 := C1) (S1 := -S1) (C3 := C3)
    (S3 := -S3) k1 k5 k4 k2 hc (by linear_combination hc2) hC1 (by linear_combination -hS1) hC3
    (by linear_combination -hS3)
  apply mat_congr
  · linear_combination hC3
  · linear_combination -e2
  · linear_combination -e1
  · ring
  · linear_combination hC1
  · linear_combination hS1
  · linear_combination hS3
  · linear_combination -e5
  · linear_combination -e4

theorem noSing_YZX (m : Nat → ℝ)
    (k1 : m 5 = m 6 * m 1 - m 7 * m 0) (k5 : m 6 = m 5 * m 1 - m 4 * m 2)
    (k4 : m 8 = m 4 * m 0 - m 3 * m 1) (k2 : m 3 = m 7 * m 2 - m 8 * m 1)
    (hr : m 0 ^ 2 + m 1 ^ 2 + m 2 ^ 2 = 1) (hl : m 1 ^ 2 + m 4 ^ 2 + m 7 ^ 2 = 1) (hs : |m 1| < 1) :
    attitude .YZX (arr [atan2 (-m 2) (m 0), Real.arcsin (m 1), atan2 (-m 7) (m 4)]) =
      !![m 0, m 1, m 2; m 3, m 4, m 5; m 6, m 7, m 8] := by
  have hab := abs_lt.mp hs
  have hsin := Real.sin_arcsin hab.1.le hab.2.le
  have hcos := Real.cos_arcsin (m 1)
  have hpos : 0 < 1 - (m 1) ^ 2 := by nlinarith
  have hc : Real.sqrt (1 - (m 1) ^ 2) ≠ 0 := (Real.sqrt_pos.mpr hpos).ne'
  have hc2 := Real.sq_sqrt hpos.le
  obtain ⟨hC1, hS1⟩ := atan2_polar (-m 2) (m 0)
  obtain ⟨hC3, hS3⟩ := atan2_polar (-m 7) (m 4)
  rw [show (m 0) ^ 2 + (-m 2) ^ 2 = 1 - (m 1) ^ 2 by linear_combination hr] at hC1 hS1
  rw [show (m 4) ^ 2 + (-m 7) ^ 2 = 1 - (m 1) ^ 2 by linear_combination hl] at hC3 hS3
  rw [attitude_YZX rfl rfl hsin hcos rfl rfl]
  generalize Real.sqrt (1 - (m 1) ^ 2) = C at *
  generalize Real.cos (atan2 (-m 2) (m 0)) = C1 at *
  generalize Real.sin (atan2 (-m 2) (m 0)) = S1 at *
  generalize Real.cos (atan2 (-m 7) (m 4)) = C3 at *
  generalize Real.sin (atan2 (-m 7) (m 4)) = S3 at *
  obtain ⟨e1, e2, e4, e5⟩ := core_noSing (n6 := m 1) (c := C) (C1 := C1) (S1 := S1) (C3 := C3)
    (S3 := S3) k1 k5 k4 k2 hc (by linear_combination hc2) hC1 (by linear_combination hS1) hC3
    (by linear_combination hS3)
  apply mat_congr
  · linear_combination hC1
  · ring
  · linear_combination -hS1
  · linear_combination -e2
  · linear_combination hC3
  · linear_combination -e1
  · linear_combination -e5
  · linear_combination -hS3
  · linear_combination -e4

theorem noSing_YXZ (m : Nat → ℝ)
    (k1 : m 3 = m 2 * m 7 - m 1 * m 8) (k5 : m 2 = m 3 * m 7 - m 4 * m 6)
    (k4 : m 0 = m 4 * m 8 - m 5 * m 7) (k2 : m 5 = m 1 * m 6 - m 0 * m 7)
    (hr : m 6 ^ 2 + m 7 ^ 2 + m 8 ^ 2 = 1) (hl : m 1 ^ 2 + m 4 ^ 2 + m 7 ^ 2 = 1) (hs : |-m 7| < 1) :
    attitude .YXZ (arr [atan2 (m 6) (m 8), Real.arcsin (-m 7), atan2 (m 1) (m 4)]) =
      !![m 0, m 1, m 2; m 3, m 4, m 5; m 6, m 7, m 8] := by
  have hab := abs_lt.mp hs
  have hsin := Real.sin_arcsin hab.1.le hab.2.le
  have hcos := Real.cos_arcsin (-m 7)
  have hpos : 0 < 1 - (-m 7) ^ 2 := by nlinarith
  have hc : Real.sqrt (1 - (-m 7) ^ 2) ≠ 0 := (Real.sqrt_pos.mpr hpos).ne'
  have hc2 := Real.sq_sqrt hpos.le
  obtain ⟨hC1, hS1⟩ := atan2_polar (m 6) (m 8)
  obtain ⟨hC3, hS3⟩ := atan2_polar (m 1) (m 4)
  rw [show (m 8) ^ 2 + (m 6) ^ 2 = 1 - (-m 7) ^ 2 by linear_combination hr] at hC1 hS1
  rw [show (m 4) ^ 2 + (m 1) ^ 2 = 1 - (-m 7) ^ 2 by linear_combination hl] at hC3 hS3
  rw [attitude_YXZ rfl rfl hsin hcos rfl rfl]
  generalize Real.sqrt (1 - (-m 7) ^ 2) = C at *
  generalize Real.cos (atan2 (m 6) (m 8)) = C1 at *
  generalize Real.sin (atan2 (m 6) (m 8)) = S1 at *
  generalize Real.cos (atan2 (m 1) (m 4)) = C3 at *
  generalize Real.sin (atan2 (m 1) (m 4)) = S3 at *
  obtain ⟨e1, e2, e4, e5⟩ := core_noSing (n6 := m 7) (c := C) (C1 := C1) (S1 := -S1) (C3 := C3)
    (S3 := -S3) k1 k5 k4 k2 hc (by linear_combination hc2) hC1 (by linear_combination -hS1) hC3
    (by linear_combination -hS3)
  apply mat_congr
  · linear_combination -e4
  · linear_combination hS3
  · linear_combination -e5
  · linear_combination -e1
  · linear_combination hC3
  · linear_combination -e2
  · linear_combination hS1
  · ring
  · linear_combination hC1

theorem noSing_ZXY (m : Nat → ℝ)
    (k1 : m 6 = m 1 * m 5 - m 2 * m 4) (k5 : m 1 = m 6 * m 5 - m 8 * m 3)
    (k4 : m 0 = m 8 * m 4 - m 7 * m 5) (k2 : m 7 = m 2 * m 3 - m 0 * m 5)
    (hr : m 3 ^ 2 + m 4 ^ 2 + m 5 ^ 2 = 1) (hl : m 2 ^ 2 + m 5 ^ 2 + m 8 ^ 2 = 1) (hs : |m 5| < 1) :
    attitude .ZXY (arr [atan2 (-m 3) (m 4), Real.arcsin (m 5), atan2 (-m 2) (m 8)]) =
      !![m 0, m 1, m 2; m 3, m 4, m 5; m 6, m 7, m 8] := by
  have hab := abs_lt.mp hs
  have hsin := Real.sin_arcsin hab.1.le hab.2.le
  have hcos := Real.cos_arcsin (m 5)
  have hpos : 0 < 1 - (m 5) ^ 2 := by nlinarith
  have hc : Real.sqrt (1 - (m 5) ^ 2) ≠ 0 := (Real.sqrt_pos.mpr hpos).ne'
  have hc2 := Real.sq_sqrt hpos.le
  obtain ⟨hC1, hS1⟩ := atan2_polar (-m 3) (m 4)
  obtain ⟨hC3, hS3⟩ := atan2_polar (-m 2) (m 8)
  rw [show (m 4) ^ 2 + (-m 3) ^ 2 = 1 - (m 5) ^ 2 by linear_combination hr] at hC1 hS1
  rw [show (m 8) ^ 2 + (-m 2) ^ 2 = 1 - (m 5) ^ 2 by linear_combination hl] at hC3 hS3
  rw [attitude_ZXY rfl rfl hsin hcos rfl rfl]
  generalize Real.sqrt (1 - (m 5) ^ 2) = C at *
  generalize Real.cos (atan2 (-m 3) (m 4)) = C1 at *
  generalize Real.sin (atan2 (-m 3) (m 4)) = S1 at *
  generalize Real.cos (atan2 (-m 2) (m 8)) = C3 at *
  generalize Real.sin (atan2 (-m 2) (m 8)) = S3 at *
  obtain ⟨e1, e2, e4, e5⟩ := core_noSing (n6 := m 5) (c := C) (C1 := C1) (S1 := S1) (C3 := C3)
    (S3 := S3) k1 k5 k4 k2 hc (by linear_combination hc2) hC1 (by linear_combination hS1) hC3
    (by linear_combination hS3)
  apply mat_congr
  · linear_combination -e4
  · linear_combination -e5
  · linear_combination -hS3
  · linear_combination -hS1
  · linear_combination hC1
  · ring
  · linear_combination -e1
  · linear_combination -e2
  · linear_combination hC3

theorem noSing_ZYX (m : Nat → ℝ)
    (k1 : m 7 = m 3 * m 2 - m 5 * m 0) (k5 : m 3 = m 7 * m 2 - m 8 * m 1)
    (k4 : m 4 = m 8 * m 0 - m 6 * m 2) (k2 : m 6 = m 5 * m 1 - m 4 * m 2)
    (hr : m 0 ^ 2 + m 1 ^ 2 + m 2 ^ 2 = 1) (hl : m 2 ^ 2 + m 5 ^ 2 + m 8 ^ 2 = 1) (hs : |-m 2| < 1) :
    attitude .ZYX (arr [atan2 (m 1) (m 0), Real.arcsin (-m 2), atan2 (m 5) (m 8)]) =
      !![m 0, m 1, m 2; m 3, m 4, m 5; m 6, m 7, m 8] := by
  have hab := abs_lt.mp hs
  have hsin := Real.sin_arcsin hab.1.le hab.2.le
  have hcos := Real.cos_arcsin (-m 2)
  have hpos : 0 < 1 - (-m 2) ^ 2 := by nlinarith
  have hc : Real.sqrt (1 - (-m 2) ^ 2) ≠ 0 := (Real.sqrt_pos.mpr hpos).ne'
  have hc2 := Real.sq_sqrt hpos.le
  obtain ⟨hC1, hS1⟩ := atan2_polar (m 1) (m 0)
  obtain ⟨hC3, hS3⟩ := atan2_polar (m 5) (m 8)
  rw [show (m 0) ^ 2 + (m 1) ^ 2 = 1 - (-m 2) ^ 2 by linear_combination hr] at hC1 hS1
  rw [show (m 8) ^ 2 + (m 5) ^ 2 = 1 - (-m 2) ^ 2 by linear_combination hl] at hC3 hS3
  rw [attitude_ZYX rfl rfl hsin hcos rfl rfl]
  generalize Real.sqrt (1 - (-m 2) ^ 2) = C at *
  generalize Real.cos (atan2 (m 1) (m 0)) = C1 at *
  generalize Real.sin (atan2 (m 1) (m 0)) = S1 at *
  generalize Real.cos (atan2 (m 5) (m 8)) = C3 at *
  generalize Real.sin (atan2 (m 5) (m 8)) = S3 at *
  obtain ⟨e1, e2, e4, e5⟩ := core_noSing (n6 := m 2) (c := C) (C1 := C1) (S1 := -S1) (C3 := C3)
    (S3 := -S3) k1 k5 k4 k2 hc (by linear_combination hc2) hC1 (by linear_combination -hS1) hC3
    (by linear_combination -hS3)
  apply mat_congr
  · linear_combination hC1
  · linear_combination hS1
  · ring
  · linear_combination -e5
  · linear_combination -e4
  · linear_combination hS3
  · linear_combination -e2
  · linear_combination -e1
  · linear_combination hC3

theorem noSing_attitude (e : Seq) (q : Arr ℝ) (h : UnitQ q)
    (hs : |computeRot2Sin e q| < 1) :
    attitude e (computeAnglesNoSing e q (computeRot2Sin e q)) = toMat 3 (qtoM q) := by
  obtain ⟨k0, k1, k2, k3, k4, k5, k6, k7, k8⟩ := qtoM_cofactors q h
  obtain ⟨r0, r1, r2, l0, l1, l2⟩ := qtoM_lengths q h
  rw [qtoM_mat]
  cases e
  · exact noSing_XYZ (qtoMElement q) (by linear_combination k1) (by linear_combination k5)
      (by linear_combination k4) (by linear_combination k2) (by linear_combination r2)
      (by linear_combination l0) hs
  · exact noSing_XZY (qtoMElement q) (by linear_combination k2) (by linear_combination k7)
      (by linear_combination k8) (by linear_combination k1) (by linear_combination r1)
      (by linear_combination l0) hs
  · exact noSing_YZX (qtoMElement q) (by linear_combination k5) (by linear_combination k6)
      (by linear_combination k8) (by linear_combination k3) (by linear_combination r0)
      (by linear_combination l1) hs
  · exact noSing_YXZ (qtoMElement q) (by linear_combination k3) (by linear_combination k2)
      (by linear_combination k0) (by linear_combination k5) (by linear_combination r2)
      (by linear_combination l1) hs
  · exact noSing_ZXY (qtoMElement q) (by linear_combination k6) (by linear_combination k1)
      (by linear_combination k0) (by linear_combination k7) (by linear_combination r1)
      (by linear_combination l2) hs
  · exact noSing_ZYX (qtoMElement q) (by linear_combination k7) (by linear_combination k3)
      (by linear_combination k4) (by linear_combination k6) (by linear_combination r0)
      (by linear_combination l2) hs

end Gunns.Dyn
