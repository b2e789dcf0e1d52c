import Mathlib.Analysis.Calculus.Deriv.Basic
import Mathlib.Analysis.Calculus.Deriv.Pow
import Mathlib.Analysis.Calculus.Deriv.Mul
import Mathlib.Analysis.SpecialFunctions.Trigonometric.Bounds
import Mathlib.Tactic.FieldSimp
import Verif.Dyn.EulerSingular

set_option linter.unusedSectionVars false

namespace Gunns.Dyn

open Matrix

/-! ## Angles there and back -/

theorem attitude_congr (e : Seq) {a b : Arr ℝ} (h0 : a 0 = b 0) (h1 : a 1 = b 1)
    (h2 : a 2 = b 2) : attitude e a = attitude e b := by
  unfold attitude
  rw [h0, h1, h2]

/-- The matrix of an attitude gives its second sine and its angles. -/
theorem angles_of_attitude (e : Seq) (q : Arr ℝ) {x y z : ℝ}
    (h : toMat 3 (qtoM q) = attitude e (arr [x, y, z])) (hy1 : -(Real.pi / 2) < y)
    (hy2 : y < Real.pi / 2) (hx1 : -Real.pi < x) (hx2 : x ≤ Real.pi) (hz1 : -Real.pi < z)
    (hz2 : z ≤ Real.pi) :
    computeRot2Sin e q = Real.sin y ∧ computeAnglesNoSing e q (Real.sin y) = arr [x, y, z] := by
  have hc : 0 < Real.cos y := Real.cos_pos_of_mem_Ioo ⟨hy1, hy2⟩
  have ha : Real.arcsin (Real.sin y) = y := Real.arcsin_sin hy1.le hy2.le
  have tx := atan2_of_polar hc hx1 hx2
  have tz := atan2_of_polar hc hz1 hz2
  rw [qtoM_mat] at h
  cases e
  · rw [attitude_XYZ rfl rfl rfl rfl rfl rfl] at h
    have h0 : qtoMElement q 0 = Real.cos z * Real.cos y := congrFun (congrFun h 0) 0
    have h3 : -qtoMElement q 3 = Real.sin z * Real.cos y := by
      have : qtoMElement q 3 = -(Real.sin z * Real.cos y) := congrFun (congrFun h 1) 0
      rw [this]; ring
    have h6 : qtoMElement q 6 = Real.sin y := by
      have : qtoMElement q 6 = Real.sin y := congrFun (congrFun h 2) 0
      rw [this]
    have h7 : -qtoMElement q 7 = Real.sin x * Real.cos y := by
      have : qtoMElement q 7 = -(Real.sin x * Real.cos y) := congrFun (congrFun h 2) 1
      rw [this]; ring
    have h8 : qtoMElement q 8 = Real.cos x * Real.cos y := congrFun (congrFun h 2) 2
    refine ⟨h6, ?_⟩
    simp only [computeAnglesNoSing]
    rw [h0, h3, h7, h8, ha, mul_comm (Real.sin x), mul_comm (Real.cos x), mul_comm (Real.sin z),
      mul_comm (Real.cos z), tx, tz]
  · rw [attitude_XZY rfl rfl rfl rfl rfl rfl] at h
    have h0 : qtoMElement q 0 = Real.cos z * Real.cos y := congrFun (congrFun h 0) 0
    have h3 : qtoMElement q 6 = Real.sin z * Real.cos y := by
      have : qtoMElement q 6 = Real.sin z * Real.cos y := congrFun (congrFun h 2) 0
      rw [this]
    have h6 : -qtoMElement q 3 = Real.sin y := by
      have : qtoMElement q 3 = -Real.sin y := congrFun (congrFun h 1) 0
      rw [this]; ring
    have h7 : qtoMElement q 5 = Real.sin x * Real.cos y := by
      have : qtoMElement q 5 = Real.sin x * Real.cos y := congrFun (congrFun h 1) 2
      rw [this]
    have h8 : qtoMElement q 4 = Real.cos x * Real.cos y := congrFun (congrFun h 1) 1
    refine ⟨h6, ?_⟩
    simp only [computeAnglesNoSing]
    rw [h0, h3, h7, h8, ha, mul_comm (Real.sin x), mul_comm (Real.cos x), mul_comm (Real.sin z),
      mul_comm (Real.cos z), tx, tz]
  · rw [attitude_YZX rfl rfl rfl rfl rfl rfl] at h
    have h0 : qtoMElement q 4 = Real.cos z * Real.cos y := congrFun (congrFun h 1) 1
    have h3 : -qtoMElement q 7 = Real.sin z * Real.cos y := by
      have : qtoMElement q 7 = -(Real.sin z * Real.cos y) := congrFun (congrFun h 2) 1
      rw [this]; ring
    have h6 : qtoMElement q 1 = Real.sin y := by
      have : qtoMElement q 1 = Real.sin y := congrFun (congrFun h 0) 1
      rw [this]
    have h7 : -qtoMElement q 2 = Real.sin x * Real.cos y := by
      have : qtoMElement q 2 = -(Real.sin x * Real.cos y) := congrFun (congrFun h 0) 2
      rw [this]; ring
    have h8 : qtoMElement q 0 = Real.cos x * Real.cos y := congrFun (congrFun h 0) 0
    refine ⟨h6, ?_⟩
    simp only [computeAnglesNoSing]
    rw [h0, h3, h7, h8, ha, mul_comm (Real.sin x), mul_comm (Real.cos x), mul_comm (Real.sin z),
      mul_comm (Real.cos z), tx, tz]
  · rw [attitude_YXZ rfl rfl rfl rfl rfl rfl] at h
    have h0 : qtoMElement q 4 = Real.cos z * Real.cos y := congrFun (congrFun h 1) 1
    have h3 : qtoMElement q 1 = Real.sin z * Real.cos y := by
      have : qtoMElement q 1 = Real.sin z * Real.cos y := congrFun (congrFun h 0) 1
      rw [this]
    have h6 : -qtoMElement q 7 = Real.sin y := by
      have : qtoMElement q 7 = -Real.sin y := congrFun (congrFun h 2) 1
      rw [this]; ring
    have h7 : qtoMElement q 6 = Real.sin x * Real.cos y := by
      have : qtoMElement q 6 = Real.sin x * Real.cos y := congrFun (congrFun h 2) 0
      rw [this]
    have h8 : qtoMElement q 8 = Real.cos x * Real.cos y := congrFun (congrFun h 2) 2
    refine ⟨h6, ?_⟩
    simp only [computeAnglesNoSing]
    rw [h0, h3, h7, h8, ha, mul_comm (Real.sin x), mul_comm (Real.cos x), mul_comm (Real.sin z),
      mul_comm (Real.cos z), tx, tz]
  · rw [attitude_ZXY rfl rfl rfl rfl rfl rfl] at h
    have h0 : qtoMElement q 8 = Real.cos z * Real.cos y := congrFun (congrFun h 2) 2
    have h3 : -qtoMElement q 2 = Real.sin z * Real.cos y := by
      have : qtoMElement q 2 = -(Real.sin z * Real.cos y) := congrFun (congrFun h 0) 2
      rw [this]; ring
    have h6 : qtoMElement q 5 = Real.sin y := by
      have : qtoMElement q 5 = Real.sin y := congrFun (congrFun h 1) 2
      rw [this]
    have h7 : -qtoMElement q 3 = Real.sin x * Real.cos y := by
      have : qtoMElement q 3 = -(Real.sin x * Real.cos y) := congrFun (congrFun h 1) 0
      rw [this]; ring
    have h8 : qtoMElement q 4 = Real.cos x * Real.cos y := congrFun (congrFun h 1) 1
    refine ⟨h6, ?_⟩
    simp only [computeAnglesNoSing]
    rw [h0, h3, h7, h8, ha, mul_comm (Real.sin x), mul_comm (Real.cos x), mul_comm (Real.sin z),
      mul_comm (Real.cos z), tx, tz]
  · rw [attitude_ZYX rfl rfl rfl rfl rfl rfl] at h
    have h0 : qtoMElement q 8 = Real.cos z * Real.cos y := congrFun (congrFun h 2) 2
    have h3 : qtoMElement q 5 = Real.sin z * Real.cos y := by
      have : qtoMElement q 5 = Real.sin z * Real.cos y := congrFun (congrFun h 1) 2
      rw [this]
    have h6 : -qtoMElement q 2 = Real.sin y := by
      have : qtoMElement q 2 = -Real.sin y := congrFun (congrFun h 0) 2
      rw [this]; ring
    have h7 : qtoMElement q 1 = Real.sin x * Real.cos y := by
      have : qtoMElement q 1 = Real.sin x * Real.cos y := congrFun (congrFun h 0) 1
      rw [this]
    have h8 : qtoMElement q 0 = Real.cos x * Real.cos y := congrFun (congrFun h 0) 0
    refine ⟨h6, ?_⟩
    simp only [computeAnglesNoSing]
    rw [h0, h3, h7, h8, ha, mul_comm (Real.sin x), mul_comm (Real.cos x), mul_comm (Real.sin z),
      mul_comm (Real.cos z), tx, tz]

/-- The matrix of an attitude gives its second sine. -/
theorem rot2sin_of_attitude (e : Seq) (q : Arr ℝ) {x y z : ℝ}
    (h : toMat 3 (qtoM q) = attitude e (arr [x, y, z])) : computeRot2Sin e q = Real.sin y := by
  rw [qtoM_mat] at h
  cases e
  · rw [attitude_XYZ rfl rfl rfl rfl rfl rfl] at h
    have : qtoMElement q 6 = Real.sin y := congrFun (congrFun h 2) 0
    simp only [computeRot2Sin, this]
  · rw [attitude_XZY rfl rfl rfl rfl rfl rfl] at h
    have : qtoMElement q 3 = -Real.sin y := congrFun (congrFun h 1) 0
    simp only [computeRot2Sin, this]; ring
  · rw [attitude_YZX rfl rfl rfl rfl rfl rfl] at h
    have : qtoMElement q 1 = Real.sin y := congrFun (congrFun h 0) 1
    simp only [computeRot2Sin, this]
  · rw [attitude_YXZ rfl rfl rfl rfl rfl rfl] at h
    have : qtoMElement q 7 = -Real.sin y := congrFun (congrFun h 2) 1
    simp only [computeRot2Sin, this]; ring
  · rw [attitude_ZXY rfl rfl rfl rfl rfl rfl] at h
    have : qtoMElement q 5 = Real.sin y := congrFun (congrFun h 1) 2
    simp only [computeRot2Sin, this]
  · rw [attitude_ZYX rfl rfl rfl rfl rfl rfl] at h
    have : qtoMElement q 2 = -Real.sin y := congrFun (congrFun h 0) 2
    simp only [computeRot2Sin, this]; ring

/-- The second sine of a quaternion of at most unit magnitude is a sine. -/
theorem rot2sin_le (e : Seq) (q : Arr ℝ) (h : q 0 ^ 2 + q 1 ^ 2 + q 2 ^ 2 + q 3 ^ 2 ≤ 1) :
    -1 ≤ computeRot2Sin e q ∧ computeRot2Sin e q ≤ 1 := by
  have p : ∀ a b c d : ℝ, a ^ 2 + b ^ 2 + c ^ 2 + d ^ 2 ≤ 1 → 2 * (a * b + c * d) ≤ 1 ∧
      -1 ≤ 2 * (a * b + c * d) := by
    intro a b c d hh
    constructor <;> nlinarith [sq_nonneg (a - b), sq_nonneg (c - d), sq_nonneg (a + b),
      sq_nonneg (c + d)]
  have h1 := p (q 1) (q 3) (q 0) (q 2) (by linarith)
  have h2 := p (q 1) (q 2) (q 0) (q 3) (by linarith)
  have h3 := p (q 2) (q 3) (q 0) (q 1) (by linarith)
  have h4 := p (q 1) (q 3) (-q 0) (q 2) (by nlinarith)
  have h5 := p (q 1) (q 2) (-q 0) (q 3) (by nlinarith)
  have h6 := p (q 2) (q 3) (-q 0) (q 1) (by nlinarith)
  cases e <;> simp only [computeRot2Sin, qtoMElement] <;> constructor <;> linarith

theorem tolSing_eq : tolSing = Real.cos 1e-6 := by
  unfold tolSing
  rw [Real.sin_pi_div_two_sub]

theorem tolSing_pos : 0 < tolSing := by
  rw [tolSing_eq]
  apply Real.cos_pos_of_mem_Ioo
  constructor <;> norm_num <;> linarith [Real.two_le_pi]

theorem tolSing_le_one : tolSing ≤ 1 := by rw [tolSing_eq]; exact Real.cos_le_one _

/-- Past the tolerance the second sine is within a part in ten to the twelfth of one. -/
theorem near_sing {s : ℝ} (h : tolSing ≤ |s|) : 1 - s ^ 2 ≤ (1e-6 : ℝ) ^ 2 := by
  have h1 : tolSing ^ 2 ≤ s ^ 2 := by
    rw [← sq_abs s]; exact pow_le_pow_left₀ tolSing_pos.le h 2
  have h2 := Real.sin_sq_add_cos_sq (1e-6 : ℝ)
  have h3 : Real.sin (1e-6 : ℝ) ≤ 1e-6 := Real.sin_le (by norm_num)
  have h4 : 0 ≤ Real.sin (1e-6 : ℝ) :=
    Real.sin_nonneg_of_nonneg_of_le_pi (by norm_num) (by norm_num; linarith [Real.two_le_pi])
  rw [tolSing_eq] at h1
  nlinarith

end Gunns.Dyn
