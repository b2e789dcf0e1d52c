import Mathlib.Tactic.Linarith
import Mathlib.LinearAlgebra.Matrix.DotProduct
import Verif.Dyn.RigidStale

/-!
# C42: the state derivative of a rigid body
-/

set_option linter.unusedSectionVars false

namespace Gunns.Props

open Gunns.Spec Gunns.Dyn Matrix

variable {K : Type _} [Field K] [LinearOrder K] [IsStrictOrderedRing K]

/-- Mass properties that fail a check are refused and nothing changes; others are not refused. -/
theorem c42_refuses (d : Deriv K) (h : Reach d) (i : DerivInput K) :
    (¬ ValidMass i.props → d.update i = .invalid d) ∧
    (ValidMass i.props → ∃ d', d.update i = .ok d' ∨ d.update i = .numeric d') := by
  constructor
  · intro hv
    apply update_invalid
    rw [valid_iff] at hv
    simpa using hv
  · intro hv
    rw [valid_iff] at hv
    rcases update_cases i d (reach_inv h) with ⟨g, -⟩ | ⟨-, -, d', g, -⟩ | ⟨-, -, d', g⟩
    · rw [hv] at g; cases g
    · exact ⟨d', Or.inl g⟩
    · exact ⟨d', Or.inr g⟩

/-- The result is a function of the inputs of the call: whatever calls came before, one object returns
normally exactly when another does, with the same derivatives. -/
theorem c42_history (d₁ d₂ : Deriv K) (h₁ : Reach d₁) (h₂ : Reach d₂) (i : DerivInput K)
    (e₁ : Deriv K) (hu : d₁.update i = .ok e₁) :
    ∃ e₂, d₂.update i = .ok e₂ ∧ toVec 3 e₂.acc = toVec 3 e₁.acc ∧
      toVec 3 e₂.angAcc = toVec 3 e₁.angAcc ∧ e₂.qd = e₁.qd ∧ e₁.qd = qdot i.quat i.angVel := by
  rcases update_cases i d₁ (reach_inv h₁) with ⟨-, g⟩ | ⟨hr, ⟨B, hB⟩, d', g, -⟩ | ⟨-, -, d', g⟩
  · rw [g] at hu; cases hu
  · obtain ⟨f₁, x₁, a1, -, a3, a4, a5, -⟩ := update_ok i d₁ (reach_inv h₁) hr B hB
    obtain ⟨f₂, x₂, b1, -, b3, b4, b5, -⟩ := update_ok i d₂ (reach_inv h₂) hr B hB
    rw [hu] at a1
    cases a1
    have hx := solve_unique B _ _ _ _ x₂ x₁ (fun _ _ => rfl) b3 a3
    refine ⟨f₂, b1, ?_, ?_, b5.trans a5.symm, a5⟩
    · funext k
      show f₂.acc k = e₁.acc k
      rw [(b4 k k.2).1, (a4 k k.2).1, hx k (by have := k.2; omega)]
    · funext k
      show f₂.angAcc k = e₁.angAcc k
      rw [(b4 k k.2).2, (a4 k k.2).2, hx (3 + k) (by have := k.2; omega)]
  · rw [g] at hu; cases hu

/-- Newton's law for the centre of mass, wherever it is in the body: every normal return solves it, up to a
relative `1e-15` on the mass of a row whose terms cancel and to the flush of outputs below `2⁻⁵²`. -/
theorem c42_newton (d d' : Deriv K) (h : Reach d) (i : DerivInput K) (hm : MomentsClear i.props)
    (hu : d.update i = .ok d') :
    ∃ a α δ : Fin 3 → K, (∀ k : Fin 3, Cleaned (d'.acc k) (a k)) ∧
      (∀ k : Fin 3, Cleaned (d'.angAcc k) (α k)) ∧ (∀ k, 0 ≤ δ k ∧ δ k ≤ 1 / 10 ^ 15) ∧
      (RowsClear i.props → NewtonEq i.props (toVec 3 i.angVel) i.forces a α) ∧
      (∀ k, i.props.mass * ((1 + δ k) * a k + (α ⨯₃ centre i.props) k +
        (toVec 3 i.angVel ⨯₃ (toVec 3 i.angVel ⨯₃ centre i.props)) k) = netForce i.forces k) := by
  obtain ⟨B, -, hr, a, α, h1, h2, h3, -⟩ :=
    update_equations i d d' (reach_inv h) (noFlush_of _ hm) hu
  have hmass : 0 < i.props.mass := dblEps_pos.trans_le (valid_pos _ hr).1
  have hdiag : ∀ k : Fin 3, massTab i.props k k = i.props.mass := by
    intro k; fin_cases k <;> rfl
  refine ⟨a, α, fun k => condMat i.props k k / i.props.mass - 1, h1, h2, ?_, ?_, ?_⟩
  · intro k
    obtain ⟨c1, c2, -⟩ := condMat_diag i.props hr k (by have := k.2; omega)
    rw [hdiag] at c1 c2
    constructor
    · rw [sub_nonneg, le_div_iff₀ hmass, one_mul]; exact c1
    · rw [sub_le_iff_le_add, div_le_iff₀ hmass]
      linarith
  · intro hc
    have hp := plain_of _ hr hc
    funext k
    have := h3 k
    rw [hp k k.2] at this
    simp only [Pi.smul_apply, Pi.add_apply, smul_eq_mul]
    linarith
  · intro k
    have := h3 k
    have e : i.props.mass * (1 + (condMat i.props k k / i.props.mass - 1)) = condMat i.props k k := by
      field_simp
      ring
    linear_combination this + a k * e

/-- The rotational rows. For a positive definite inertia and an offset whose signs the decomposition can
handle the call returns normally, and the angular acceleration solves a system whose matrix is the inertia
up to `1e-15` (relative to the diagonal of the assembled row) on the diagonal and about `1e-100` off it.
Missing: the right side is Euler's only when the centre of mass is the origin; otherwise it has the extra
term of `c42_offset_wrong`. -/
theorem c42_rotation_partial (d : Deriv K) (h : Reach d) (i : DerivInput K) (hv : ValidMass i.props)
    (hpos : InertiaPos i.props) (ho : OffsetOk i.props) (hm : MomentsClear i.props)
    (hc : RowsClear i.props) :
    ∃ d', d.update i = .ok d' ∧ ∃ (a α : Fin 3 → K) (J : Matrix (Fin 3) (Fin 3) K),
      (∀ k : Fin 3, Cleaned (d'.acc k) (a k)) ∧ (∀ k : Fin 3, Cleaned (d'.angAcc k) (α k)) ∧
      NewtonEq i.props (toVec 3 i.angVel) i.forces a α ∧
      J *ᵥ α + toVec 3 i.angVel ⨯₃ (inertia i.props *ᵥ toVec 3 i.angVel) =
        netTorque i.props i.forces i.torques - centre i.props ⨯₃ (netForce i.forces -
          i.props.mass • (toVec 3 i.angVel ⨯₃ (toVec 3 i.angVel ⨯₃ centre i.props))) ∧
      J.transpose = J ∧
      (∀ k, 0 ≤ J k k - inertia i.props k k ∧ J k k - inertia i.props k k ≤ 1 / 10 ^ 15 *
        (inertia i.props k k + i.props.mass * (centre i.props ⬝ᵥ centre i.props - centre i.props k ^ 2))) ∧
      (∀ k l, k ≠ l → 0 ≤ J k l - inertia i.props k l ∧ J k l - inertia i.props k l ≤
        1 / 10 ^ 100 * (1 + |i.props.ixz| + |i.props.ixy| / i.props.ixx)) ∧
      (i.props.ixy = 0 → i.props.ixz = 0 → i.props.iyz = 0 → MomentRowsClear i.props →
        J = inertia i.props) := by
  rw [valid_iff] at hv
  have hf := noFlush_of _ hm
  have hp := plain_of _ hv hc
  obtain ⟨B, hB⟩ := decompose_exists i.props hv hf hp (cmOk_of _ ho) hpos
  obtain ⟨d', x, hu, -⟩ := update_ok i d (reach_inv h) hv B hB
  obtain ⟨B', hB', hr, a, α, h1, h2, h3, h4⟩ := update_equations i d d' (reach_inv h) hf hu
  rw [hB] at hB'
  obtain rfl := DecompResult.ok.inj hB'
  obtain ⟨j1, j2, j3, j4⟩ := rotMat_facts i.props hv hf hp (cmOk_of _ ho) hpos B hB
  have hdiag : ∀ k : Fin 3, massTab i.props (3 + k) (3 + k) = inertia i.props k k +
      i.props.mass * (centre i.props ⬝ᵥ centre i.props - centre i.props k ^ 2) := by
    have e : centre i.props ⬝ᵥ centre i.props =
        i.props.cm 0 ^ 2 + i.props.cm 1 ^ 2 + i.props.cm 2 ^ 2 := by
      simp [dotProduct, Fin.sum_univ_three, centre, toVec, sq]
    intro k
    rw [e]
    fin_cases k
    · show i.props.ixx + i.props.mass * (i.props.cm 1 ^ 2 + i.props.cm 2 ^ 2) = i.props.ixx +
        i.props.mass * (i.props.cm 0 ^ 2 + i.props.cm 1 ^ 2 + i.props.cm 2 ^ 2 - i.props.cm 0 ^ 2)
      ring
    · show i.props.iyy + i.props.mass * (i.props.cm 0 ^ 2 + i.props.cm 2 ^ 2) = i.props.iyy +
        i.props.mass * (i.props.cm 0 ^ 2 + i.props.cm 1 ^ 2 + i.props.cm 2 ^ 2 - i.props.cm 1 ^ 2)
      ring
    · show i.props.izz + i.props.mass * (i.props.cm 0 ^ 2 + i.props.cm 1 ^ 2) = i.props.izz +
        i.props.mass * (i.props.cm 0 ^ 2 + i.props.cm 1 ^ 2 + i.props.cm 2 ^ 2 - i.props.cm 2 ^ 2)
      ring
  refine ⟨d', hu, a, α, rotMat i.props B, h1, h2, ?_, h4 hp, j1, ?_, j3, ?_⟩
  · funext k
    have := h3 k
    rw [hp k k.2] at this
    simp only [Pi.smul_apply, Pi.add_apply, smul_eq_mul]
    linarith
  · intro k
    obtain ⟨c1, c2, -⟩ := condMat_diag i.props hr (3 + k) (by have := k.2; omega)
    rw [j2 k, ← hdiag k]
    constructor <;> linarith
  · intro z1 z2 z3 hmr
    ext a b
    by_cases hab : a = b
    · subst hab
      rw [j2 a, momentRows_of _ hv hmr a a.2, sub_self, add_zero]
    · rw [j4 z1 z2 z3 a b hab]
      revert hab
      fin_cases a <;> fin_cases b <;> intro hab <;> first | exact absurd rfl hab | skip
      all_goals simp [inertia, z1, z2, z3]

/-- Centre of mass at the origin: the call returns normally with `F = m·a`, and with Euler's equation for a
matrix that is the inertia up to `1e-15` of its diagonal and about `1e-100` off the diagonal; for principal
axes it is the inertia itself. -/
theorem c42_centred (d : Deriv K) (h : Reach d) (i : DerivInput K) (hv : ValidMass i.props)
    (hpos : InertiaPos i.props) (h0 : centre i.props = 0) :
    ∃ d', d.update i = .ok d' ∧ ∃ (a α : Fin 3 → K) (J : Matrix (Fin 3) (Fin 3) K),
      (∀ k : Fin 3, Cleaned (d'.acc k) (a k)) ∧ (∀ k : Fin 3, Cleaned (d'.angAcc k) (α k)) ∧
      i.props.mass • a = netForce i.forces ∧
      J *ᵥ α + toVec 3 i.angVel ⨯₃ (inertia i.props *ᵥ toVec 3 i.angVel) =
        netTorque i.props i.forces i.torques ∧
      J.transpose = J ∧
      (∀ k, 0 ≤ J k k - inertia i.props k k ∧
        J k k - inertia i.props k k ≤ 1 / 10 ^ 15 * inertia i.props k k) ∧
      (∀ k l, k ≠ l → 0 ≤ J k l - inertia i.props k l ∧ J k l - inertia i.props k l ≤
        1 / 10 ^ 100 * (1 + |i.props.ixz| + |i.props.ixy| / i.props.ixx)) ∧
      (i.props.ixy = 0 → i.props.ixz = 0 → i.props.iyz = 0 →
        EulerEq i.props (toVec 3 i.angVel) i.forces i.torques α) := by
  have c : ∀ k, centre i.props k = 0 := fun k => congrFun h0 k
  have hm : 0 < i.props.mass := lt_of_lt_of_le (by positivity) hv.1
  obtain ⟨d', hu, a, α, J, r1, r2, r3, r4, r5, r6, r7, r8⟩ := c42_rotation_partial d h i hv hpos
    ⟨by simp [c], by simp [c], by simp [c]⟩ (fun j => by simp [c])
    (by
      have e : (1 : K) / 2 ^ 52 ≤ |i.props.mass| := by rw [abs_of_pos hm]; exact hv.1
      refine ⟨?_, ?_, ?_⟩ <;> simpa [c] using e)
  refine ⟨d', hu, a, α, J, r1, r2, ?_, ?_, r5, ?_, r7, ?_⟩
  · simpa [NewtonEq, h0] using r3
  · simpa [h0] using r4
  · simpa [h0] using r6
  · intro z1 z2 z3
    have hJ := r8 z1 z2 z3 (by
      obtain ⟨v1, v2, v3, v4, -⟩ := hv
      have e : ∀ x : K, 1 / 2 ^ 52 ≤ x → 1 / 2 ^ 52 ≤ |x| := fun x hx =>
        hx.trans (le_abs_self x)
      refine ⟨?_, ?_, ?_⟩
      · simpa [c, z1, z2, z3] using e _ v2
      · simpa [c, z1, z2, z3] using e _ v3
      · simpa [c, z1, z2, z3] using e _ v4)
    rw [hJ] at r4
    simpa [EulerEq, h0] using r4

/-! ### What fails -/

/-- A call after a numerical exception, with the same mass properties, does not throw again: it solves with
what the failed decomposition left. -/
theorem c42_failure_forgotten (d d' : Deriv K) (h : Reach d) (i j : DerivInput K)
    (hn : d.update i = .numeric d') (hj : j.props = i.props) : ∃ e, d'.update j = .ok e := by
  have hr : i.props.rejected = false := by
    rcases update_cases i d (reach_inv h) with ⟨-, g⟩ | ⟨hr, -⟩ | ⟨hr, -⟩
    · rw [g] at hn; cases hn
    · exact hr
    · exact hr
  obtain ⟨e, x, L, r, h1, -⟩ := update_stale i j d d' (reach_inv h) hr hn hj
  exact ⟨e, h1⟩

/-- A unit mass with unit moments of inertia and its centre of mass at `(x, y, 0)`. -/
def unitBody (x y : ℚ) : MassProps ℚ := ⟨1, arr [x, y, 0], 1, 0, 0, 1, 0, 1⟩

/-- The force `(0, fy, fz)` at the centre of mass of that body, which does not turn. -/
def unitPush (x y fy fz : ℚ) : DerivInput ℚ where
  props := unitBody x y
  quat := arr [1, 0, 0, 0]
  angVel := zeroV
  forces := [⟨true, arr [0, fy, fz], arr [x, y, 0]⟩, ⟨false, arr [7, 7, 7], arr [7, 7, 7]⟩]
  torques := []

theorem unit_valid (x y : ℚ) : ValidMass (unitBody x y) := by
  unfold ValidMass unitBody
  norm_num

theorem unit_inertia (x y : ℚ) : inertia (unitBody x y) = 1 := by
  ext a b
  fin_cases a <;> fin_cases b <;> rfl

theorem unit_pos (x y : ℚ) : InertiaPos (unitBody x y) := by
  intro v hv
  rw [unit_inertia, one_mulVec]
  refine lt_of_le_of_ne (Finset.sum_nonneg (fun i _ => mul_self_nonneg _)) ?_
  intro h
  apply hv
  exact dotProduct_self_eq_zero.mp h.symm

theorem unit_centre (x y : ℚ) : centre (unitBody x y) = ![x, y, 0] := by
  funext k
  fin_cases k <;> rfl

theorem push_force (x y fy fz : ℚ) : netForce (unitPush x y fy fz).forces = ![0, fy, fz] := by
  unfold netForce unitPush
  simp only [List.filter_cons, List.filter_nil, if_true, Bool.false_eq_true, if_false, List.map_cons,
    List.map_nil, List.sum_cons, List.sum_nil, add_zero]
  funext k
  fin_cases k <;> rfl

theorem push_torque (x y fy fz : ℚ) :
    netTorque (unitBody x y) (unitPush x y fy fz).forces (unitPush x y fy fz).torques = 0 := by
  unfold netTorque unitPush
  simp only [List.filter_cons, List.filter_nil, if_true, Bool.false_eq_true, if_false, List.map_cons,
    List.map_nil, List.sum_cons, List.sum_nil, add_zero, unit_centre]
  have : (toVec 3 (arr [x, y, 0]) - ![x, y, 0] : Fin 3 → ℚ) = 0 := by
    funext k
    fin_cases k <;> simp [toVec, arr]
  rw [this]
  simp

theorem push_angVel (x y fy fz : ℚ) : toVec 3 (unitPush x y fy fz).angVel = 0 := rfl

/-- The unique answer: a push through the centre of mass does not turn the body. -/
theorem push_truth (x y fy fz : ℚ) (a α : Fin 3 → ℚ) :
    (NewtonEq (unitBody x y) 0 (unitPush x y fy fz).forces a α ∧
      EulerEq (unitBody x y) 0 (unitPush x y fy fz).forces (unitPush x y fy fz).torques α) ↔
    a = ![0, fy, fz] ∧ α = 0 := by
  unfold NewtonEq EulerEq
  rw [push_torque, push_force, unit_inertia, unit_centre]
  simp only [one_mulVec, map_zero, LinearMap.zero_apply, add_zero]
  rw [show (unitBody x y).mass = 1 from rfl, one_smul]
  constructor
  · rintro ⟨h1, h2⟩
    subst h2
    simpa using h1
  · rintro ⟨h1, h2⟩
    subst h2
    simpa using h1

/-- The offset is not handled: pushed through its centre of mass at `(2,0,0)` the body is given a spin of
`-2` and an acceleration five times too large. -/
theorem c42_offset_wrong : ∃ d' : Deriv ℚ, Deriv.init.update (unitPush 2 0 1 0) = .ok d' ∧
    toVec 3 d'.acc = ![0, 5, 0] ∧ toVec 3 d'.angAcc = ![0, 0, -2] ∧
    ¬ EulerEq (unitBody 2 0) 0 (unitPush 2 0 1 0).forces (unitPush 2 0 1 0).torques
      (toVec 3 d'.angAcc) := by
  obtain ⟨d', hu, a, α, J, r1, r2, r3, r4, -, -, -, r8⟩ := c42_rotation_partial Deriv.init Reach.init
    (unitPush 2 0 1 0) (unit_valid 2 0) (unit_pos 2 0)
    (by
      show OffsetOk (unitBody 2 0)
      constructor <;> simp [unit_centre])
    (by
      show MomentsClear (unitBody 2 0)
      intro j
      rw [unit_centre]
      fin_cases j
      · right
        show (1 : ℚ) / 10 ^ 100 ≤ |1 * 2|
        norm_num
      · left; simp
      · left; simp)
    (by
      show RowsClear (unitBody 2 0)
      unfold RowsClear
      rw [unit_centre, show (unitBody 2 0).mass = 1 from rfl,
        show (![2, 0, 0] : Fin 3 → ℚ) 2 = 0 from rfl]
      norm_num)
  have hJ := r8 rfl rfl rfl (by
    show MomentRowsClear (unitBody 2 0)
    unfold MomentRowsClear
    rw [unit_centre, show (![2, 0, 0] : Fin 3 → ℚ) 2 = 0 from rfl]
    simp only [unitBody]
    norm_num)
  rw [hJ, push_angVel] at r4
  change inertia (unitBody 2 0) *ᵥ α + _ = netTorque (unitBody 2 0) _ _ -
    centre (unitBody 2 0) ⨯₃ (_ - _) at r4
  rw [push_torque, push_force, unit_centre, unit_inertia, one_mulVec] at r4
  have hα : α = ![0, 0, -2] := by
    rw [show α = α + (0 : Fin 3 → ℚ) ⨯₃ (inertia (unitBody 2 0) *ᵥ 0) by simp]
    refine r4.trans ?_
    simp [cross_apply]
  have ha : a = ![0, 5, 0] := by
    unfold NewtonEq at r3
    rw [push_angVel, push_force] at r3
    change (1 : ℚ) • (a + α ⨯₃ centre (unitBody 2 0) + 0 ⨯₃ (0 ⨯₃ centre (unitBody 2 0))) = _ at r3
    rw [unit_centre, hα, one_smul] at r3
    simp only [map_zero, LinearMap.zero_apply, add_zero] at r3
    rw [eq_sub_of_add_eq r3, cross_apply, show (![0, 0, -2] : Fin 3 → ℚ) 2 = -2 from rfl]
    funext k
    fin_cases k <;> norm_num
  have hclean : ∀ x y : ℚ, Cleaned x y → (y = 0 ∨ 1 ≤ |y|) → x = y := by
    rintro x y (h | ⟨h1, h2⟩) hy
    · exact h
    · rcases hy with h0 | h0
      · rw [h1, h0]
      · exfalso
        have : (1 : ℚ) / 2 ^ 52 ≤ 1 := by norm_num
        linarith
  have e1 : toVec 3 d'.acc = ![0, 5, 0] := by
    funext k
    rw [show toVec 3 d'.acc k = d'.acc k from rfl, ← ha]
    apply hclean _ _ (r1 k)
    rw [ha]
    fin_cases k <;> norm_num
  have e2 : toVec 3 d'.angAcc = ![0, 0, -2] := by
    funext k
    rw [show toVec 3 d'.angAcc k = d'.angAcc k from rfl, ← hα]
    apply hclean _ _ (r2 k)
    rw [hα]
    fin_cases k <;> norm_num
  refine ⟨d', hu, e1, e2, ?_⟩
  rw [e2]
  intro h
  unfold EulerEq at h
  rw [push_torque, unit_inertia] at h
  have := congrFun h 2
  simp at this

theorem badBody_facts : (unitBody 2 2).rejected = false ∧ NoFlush (unitBody 2 2) ∧ Plain (unitBody 2 2) ∧
    (∀ a, a < 3 → condMat (unitBody 2 2) (3 + a) (3 + a) = massTab (unitBody 2 2) (3 + a) (3 + a)) ∧
    piv (condMat (unitBody 2 2)) 4 = -15 := by
  have hv : (unitBody 2 2).rejected = false := (valid_iff _).mp (unit_valid 2 2)
  have hf : NoFlush (unitBody 2 2) := by
    apply noFlush_of
    intro j
    rw [unit_centre]
    fin_cases j
    · right
      show (1 : ℚ) / 10 ^ 100 ≤ |1 * 2|
      norm_num
    · right
      show (1 : ℚ) / 10 ^ 100 ≤ |1 * 2|
      norm_num
    · left; simp
  have hp : Plain (unitBody 2 2) := by
    apply plain_of _ hv
    unfold RowsClear
    rw [unit_centre, show (unitBody 2 2).mass = 1 from rfl,
      show (![2, 2, 0] : Fin 3 → ℚ) 2 = 0 from rfl]
    norm_num
  have hm : ∀ a, a < 3 → condMat (unitBody 2 2) (3 + a) (3 + a) = massTab (unitBody 2 2) (3 + a) (3 + a) := by
    apply momentRows_of _ hv
    unfold MomentRowsClear
    rw [unit_centre, show (![2, 2, 0] : Fin 3 → ℚ) 2 = 0 from rfl]
    simp only [unitBody]
    norm_num
  refine ⟨hv, hf, hp, hm, ?_⟩
  have d0 : rotBlock (unitBody 2 2) 0 0 = 1 := by
    rw [rotBlock_diag _ hf hv hp 0 (by omega), hm 0 (by omega), sub_self, add_zero]
    rfl
  have d1 : rotBlock (unitBody 2 2) 1 1 = 1 := by
    rw [rotBlock_diag _ hf hv hp 1 (by omega), hm 1 (by omega), sub_self, add_zero]
    rfl
  have e : ∀ k, k < 3 → keepV (pterm (condMat (unitBody 2 2)) 4 k) (lterm (condMat (unitBody 2 2)) 3 k) =
      keepV (massTab (unitBody 2 2) 4 k) (massTab (unitBody 2 2) 3 k / (unitBody 2 2).mass) := by
    intro k hk
    rw [lterm, pterm_col _ hf 4 k (by omega) hk (by omega), pterm_col _ hf 3 k (by omega) hk (by omega),
      piv_low _ k hk, hp k hk, condMat_off _ 4 k (by omega) (by omega) (by omega),
      condMat_off _ 3 k (by omega) (by omega) (by omega)]
  have d2 : rotBlock (unitBody 2 2) 1 0 = -4 := by
    show schur (condMat (unitBody 2 2)) 3 4 3 = _
    rw [schur_offdiag _ _ _ (by omega), Finset.sum_range_succ, Finset.sum_range_succ,
      Finset.sum_range_one, e 0 (by omega), e 1 (by omega), e 2 (by omega),
      condMat_off _ _ _ (by omega) (by omega) (by omega)]
    simp [massTab, unitBody, keepV, cholLimit, arr]
    norm_num
  rw [show (4 : Nat) = 3 + 1 from rfl, piv_rot, piv, schur_diag, Finset.sum_range_one, lterm, pterm, piv]
  simp only [schur]
  rw [d0, d1, d2, flushV, if_neg (by unfold cholLimit; norm_num)]
  norm_num

/-- Mass properties that pass every check, with the identity for inertia, make the decomposition throw when
the centre of mass is at `(2,2,0)`. -/
theorem c42_valid_throws : ∃ d' : Deriv ℚ, Deriv.init.update (unitPush 2 2 0 1) = .numeric d' := by
  obtain ⟨hv, -, -, -, hp⟩ := badBody_facts
  rcases update_cases (unitPush 2 2 0 1) Deriv.init inv_init with ⟨g, -⟩ | ⟨-, ⟨B, hB⟩, -⟩ | ⟨-, -, d', g⟩
  · rw [show (unitPush 2 2 0 1).props = unitBody 2 2 from rfl, hv] at g; cases g
  · have := ((decompose_ok_iff _ _ _).mp hB).1.2 4 (by omega) (by omega)
    rw [show (unitPush 2 2 0 1).props = unitBody 2 2 from rfl, hp] at this
    norm_num at this
  · exact ⟨d', g⟩

/-- The same call repeated returns normally, with a spin where there is none and nine times the acceleration
of the centre of mass. -/
theorem c42_stale_wrong : ∃ d' e : Deriv ℚ, Deriv.init.update (unitPush 2 2 0 1) = .numeric d' ∧
    d'.update (unitPush 2 2 0 1) = .ok e ∧ e.acc 2 = 9 ∧ e.angAcc 0 = -26 / 5 ∧ e.angAcc 1 = -6 / 5 := by
  obtain ⟨d', hn⟩ := c42_valid_throws
  obtain ⟨hv, hf, hpl, hm, hp⟩ := badBody_facts
  obtain ⟨e, x, L, r, h1, h2, h3, h4⟩ := update_stale (unitPush 2 2 0 1) (unitPush 2 2 0 1) _ d' inv_init hv
    hn rfl
  change decomposeIslands 6 (sysMat (unitBody 2 2)) (condMat (unitBody 2 2)) = _ at h2
  obtain ⟨q1, q2, q3⟩ := failed_raw (Props.condition_cross 6 (sysMat (unitBody 2 2)) (sysMat_symm _))
    (fun k hk => dblEps_pos.trans_le
      ((massTab_diag _ hv k hk).trans (condMat_diag _ hv k hk).1)) 6 le_rfl L r _ h2
  have hp4 : piv (condMat (unitBody 2 2)) 4 ≤ 0 := by rw [hp]; norm_num
  have n24 : condMat (unitBody 2 2) 2 4 ≠ 0 := by
    rw [condMat_off _ _ _ (by omega) (by omega) (by omega)]
    show -(1 * 2 : ℚ) ≠ 0
    norm_num
  have n34 : condMat (unitBody 2 2) 3 4 ≠ 0 := by
    rw [condMat_off _ _ _ (by omega) (by omega) (by omega)]
    show (0 - 1 * (2 * 2) : ℚ) ≠ 0
    norm_num
  have r4 := q3 4 4 (by omega) (by omega) hp4 (Or.inl rfl)
  have r3 := q3 4 3 (by omega) (by omega) hp4 (Or.inr n34)
  have r2 := q3 4 2 (by omega) (by omega) hp4 (Or.inr n24)
  have hu : UpperIsLower 6 d'.solver.mat := by
    intro a b ha hb
    rcases q2 a b ha hb with h | h
    · exact h
    · exact absurd (condMat_symm (unitBody 2 2) b a (by omega) ha) h
  -- the entries that matter
  have off : ∀ i j, i < 6 → j < 6 → i ≠ j → condMat (unitBody 2 2) i j = massTab (unitBody 2 2) i j :=
    condMat_off _
  generalize hB : d'.solver.mat = B at *
  have b20 : B 2 0 = 0 := (r2 0).1.trans (off 2 0 (by omega) (by omega) (by omega))
  have b21 : B 2 1 = 0 := (r2 1).1.trans (off 2 1 (by omega) (by omega) (by omega))
  have b30 : B 3 0 = 0 := (r3 0).1.trans (off 3 0 (by omega) (by omega) (by omega))
  have b31 : B 3 1 = 0 := by
    refine ((r3 1).1.trans (off 3 1 (by omega) (by omega) (by omega))).trans ?_
    show -(1 * 0 : ℚ) = 0
    norm_num
  have b32 : B 3 2 = 2 := by
    refine ((r3 2).1.trans (off 3 2 (by omega) (by omega) (by omega))).trans ?_
    show (1 * 2 : ℚ) = 2
    norm_num
  have b40 : B 4 0 = 0 := by
    refine ((r4 0).1.trans (off 4 0 (by omega) (by omega) (by omega))).trans ?_
    show (1 * 0 : ℚ) = 0
    norm_num
  have b41 : B 4 1 = 0 := (r4 1).1.trans (off 4 1 (by omega) (by omega) (by omega))
  have b42 : B 4 2 = -2 := by
    refine ((r4 2).1.trans (off 4 2 (by omega) (by omega) (by omega))).trans ?_
    show -(1 * 2 : ℚ) = -2
    norm_num
  have b43 : B 4 3 = -4 := by
    refine ((r4 3).1.trans (off 4 3 (by omega) (by omega) (by omega))).trans ?_
    show (0 - 1 * (2 * 2) : ℚ) = -4
    norm_num
  have b25 : B 2 5 = 0 := (r2 5).1.trans (off 2 5 (by omega) (by omega) (by omega))
  have b35 : B 3 5 = 0 := by
    refine ((r3 5).1.trans (off 3 5 (by omega) (by omega) (by omega))).trans ?_
    show (0 - 1 * (2 * 0) : ℚ) = 0
    norm_num
  have b45 : B 4 5 = 0 := by
    refine ((r4 5).1.trans (off 4 5 (by omega) (by omega) (by omega))).trans ?_
    show (0 - 1 * (2 * 0) : ℚ) = 0
    norm_num
  have b23 : B 2 3 = 2 := by rw [hu 3 2 (by omega) (by omega), b32]
  have b24 : B 2 4 = -2 := by rw [hu 4 2 (by omega) (by omega), b42]
  have b34 : B 3 4 = -4 := by rw [hu 4 3 (by omega) (by omega), b43]
  have b22 : B 2 2 = 1 := (r2 2).1.trans (hpl 2 (by omega))
  have b33 : B 3 3 = 5 := by
    refine ((r3 3).1.trans (hm 0 (by omega))).trans ?_
    show (1 + 1 * (2 ^ 2 + 0 ^ 2) : ℚ) = 5
    norm_num
  have b44 : B 4 4 = 5 := by
    refine ((r4 4).1.trans (hm 1 (by omega))).trans ?_
    show (1 + 1 * (2 ^ 2 + 0 ^ 2) : ℚ) = 5
    norm_num
  -- the right side
  have src : ∀ k : Fin 3, rigidSource (unitBody 2 2) (unitPush 2 2 0 1).angVel (unitPush 2 2 0 1).forces
      (unitPush 2 2 0 1).torques k = (![0, 0, 1] : Fin 3 → ℚ) k ∧
      rigidSource (unitBody 2 2) (unitPush 2 2 0 1).angVel (unitPush 2 2 0 1).forces
      (unitPush 2 2 0 1).torques (3 + k) = 0 := by
    intro k
    rw [source_force, source_torque, push_force, push_torque, push_angVel]
    simp
  have hs := Props.c04_solve_correct hu h3
  have rows : ∀ i, i < 6 → _ := fun i hi => by
    have := hs i hi
    rw [mulVec_ldlt 6 B hu x i, mulVec_unitLower 6 B _ i hi, buildSource_rigid _ _ i hi] at this
    exact this
  have cols : ∀ i, i < 6 → _ := fun i hi => mulVec_unitUpper 6 B x i hi
  have w2 := rows 2 (by omega)
  have w3 := rows 3 (by omega)
  have w4 := rows 4 (by omega)
  have c2 := cols 2 (by omega)
  have c3 := cols 3 (by omega)
  have c4 := cols 4 (by omega)
  have s2 := (src 2).1
  have s3 := (src 0).2
  have s4 := (src 1).2
  change rigidSource (unitBody 2 2) _ _ _ 2 = 1 at s2
  change rigidSource (unitBody 2 2) _ _ _ 3 = 0 at s3
  change rigidSource (unitBody 2 2) _ _ _ 4 = 0 at s4
  change _ = rigidSource (unitBody 2 2) _ _ _ 2 at w2
  change _ = rigidSource (unitBody 2 2) _ _ _ 3 at w3
  change _ = rigidSource (unitBody 2 2) _ _ _ 4 at w4
  rw [s2] at w2
  rw [s3] at w3
  rw [s4] at w4
  simp only [Finset.sum_range_succ, Finset.sum_range_zero, b20, b21, b22, b30, b31, b32, b33, b40, b41, b42,
    b43, b44] at w2 w3 w4
  simp only [Nat.reduceSub, Nat.reduceAdd, Finset.sum_range_succ, Finset.sum_range_zero, b23, b24, b25, b34,
    b35, b45, mul_zero, add_zero, zero_add] at c2 c3 c4
  rw [c2] at w2 w3 w4
  rw [c3] at w3 w4
  rw [c4] at w4
  have x4 : x 4 = -6 / 5 := by linarith
  have x3 : x 3 = -26 / 5 := by linarith
  have x2 : x 2 = 9 := by linarith
  refine ⟨d', e, hn, h1, ?_, ?_, ?_⟩
  · rw [(h4 2 (by omega)).1, x2]
    unfold cleanV dblEps
    norm_num
  · rw [(h4 0 (by omega)).2, x3]
    unfold cleanV dblEps
    norm_num
  · rw [(h4 1 (by omega)).2, x4]
    unfold cleanV dblEps
    norm_num

/-- The hypotheses of `c42_centred` and `c42_history` hold of a body at rest that is pushed twice. -/
example : ∃ d' d'' : Deriv ℚ, Deriv.init.update (unitPush 0 0 1 0) = .ok d' ∧
    d'.update (unitPush 2 0 1 0) = .ok d'' ∧ Reach d'' := by
  have hc : centre (unitPush 0 0 1 0).props = 0 := by
    show centre (unitBody 0 0) = 0
    rw [unit_centre]
    simp
  obtain ⟨d', hu, -⟩ := c42_centred Deriv.init Reach.init (unitPush 0 0 1 0) (unit_valid 0 0)
    (unit_pos 0 0) hc
  obtain ⟨e, he, -⟩ := c42_offset_wrong
  obtain ⟨d'', h2, -⟩ := c42_history Deriv.init d' Reach.init (Reach.ok _ Reach.init hu) (unitPush 2 0 1 0) e he
  exact ⟨d', d'', hu, h2, Reach.ok _ (Reach.ok _ Reach.init hu) h2⟩

end Gunns.Props
