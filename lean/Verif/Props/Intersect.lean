import Verif.Geom.Solids
import Mathlib.LinearAlgebra.Matrix.Determinant.Basic
import Mathlib.Tactic.NormNum

/-!
# C46: segment intersection tests find the first common point, or say that there is none
-/

namespace Gunns.Props

open Gunns.Geom Gunns.Geom.Spec

set_option linter.unusedSectionVars false

section
variable {K : Type _} [Field K] [LinearOrder K] [IsStrictOrderedRing K]

/-- Six times the volume of the solid spanned by a segment and a triangle. -/
def spanned (p q a b c : Fin 3 → K) : K := Matrix.det (Matrix.of ![p - q, b - a, c - a])

theorem spanned_eq (p q a b c : V3 K) :
    spanned p q a b c = dot (sub p q) (cross (sub b a) (sub c a)) := by
  unfold spanned
  rw [Matrix.det_fin_three]
  show (p 0 - q 0) * (b 1 - a 1) * (c 2 - a 2) - (p 0 - q 0) * (b 2 - a 2) * (c 1 - a 1) -
    (p 1 - q 1) * (b 0 - a 0) * (c 2 - a 2) + (p 1 - q 1) * (b 2 - a 2) * (c 0 - a 0) +
    (p 2 - q 2) * (b 0 - a 0) * (c 1 - a 1) - (p 2 - q 2) * (b 1 - a 1) * (c 0 - a 0) = _
  simp only [dot, sub_0, sub_1, sub_2, cross_0, cross_1, cross_2]
  ring

/-- C46: if segment and triangle span enough volume, the test answers with a point exactly if that
point is in both; so it answers `none` exactly if they have no point in common. -/
theorem c46_triangle (p q a b c : Fin 3 → K) (h : epsilon ≤ |spanned p q a b c|) (x : Fin 3 → K) :
    triangle p q a b c = some x ↔ x ∈ segment K p q ∧ x ∈ Triangle a b c := by
  rw [spanned_eq] at h
  have heps : (0 : K) < epsilon := by
    unfold epsilon
    positivity
  obtain ⟨d, hd⟩ : ∃ d, d = dot (sub p q) (cross (sub b a) (sub c a)) := ⟨_, rfl⟩
  obtain ⟨T, hT⟩ : ∃ T, T = dot (sub p a) (cross (sub b a) (sub c a)) := ⟨_, rfl⟩
  obtain ⟨V, hV⟩ : ∃ V, V = dot (sub c a) (cross (sub p q) (sub p a)) := ⟨_, rfl⟩
  obtain ⟨W, hW⟩ : ∃ W, W = -dot (sub b a) (cross (sub p q) (sub p a)) := ⟨_, rfl⟩
  have hd0 : d ≠ 0 := by
    intro h0
    rw [← hd, h0, abs_zero] at h
    exact absurd heps (not_lt.2 h)
  have hpt := triangle_point (p := p) (q := q) (a := a) (b := b) (c := c) (by rw [← hd]; exact hd0)
  simp only [] at hpt
  have hmem : ∀ t u v w : K, u + v + w = 1 → pointOnLine p q t = u • a + v • b + w • c →
      T = t * d ∧ V = v * d ∧ W = w * d := by
    intro t u v w hu he
    rw [hT, hV, hW, hd]
    exact cramer_of_mem hu he
  rw [← hd, ← hT, ← hV, ← hW] at hpt
  rw [← hd] at h
  have hval : triangle p q a b c = (if d < 0 then
        if T > 0 then none else if T < d then none else if V > 0 ∨ V < d then none
        else if W > 0 ∨ V + W < d then none else some (pointOnLine p q (T / d))
      else
        if T < 0 then none else if T > d then none else if V < 0 ∨ V > d then none
        else if W < 0 ∨ V + W > d then none else some (pointOnLine p q (T / d))) := by
    unfold triangle
    simp only []
    rw [← hd, ← hT, ← hV, ← hW, if_neg (not_lt.2 h)]
  rw [hval]
  -- the tests are those for the coordinates
  have hiff : x ∈ segment K p q ∧ x ∈ Triangle a b c ↔
      (0 ≤ T / d ∧ T / d ≤ 1 ∧ 0 ≤ V / d ∧ 0 ≤ W / d ∧ V / d + W / d ≤ 1) ∧
      pointOnLine p q (T / d) = x := by
    constructor
    · rintro ⟨hs, u, v, w, u0, v0, w0, hu, he⟩
      obtain ⟨t, t0, t1, rfl⟩ := mem_segment.1 hs
      obtain ⟨e1, e2, e3⟩ := hmem t u v w hu he
      have f1 : T / d = t := by rw [e1, mul_div_cancel_right₀ _ hd0]
      have f2 : V / d = v := by rw [e2, mul_div_cancel_right₀ _ hd0]
      have f3 : W / d = w := by rw [e3, mul_div_cancel_right₀ _ hd0]
      rw [f1, f2, f3]
      exact ⟨⟨t0, t1, v0, w0, by linarith⟩, rfl⟩
    · rintro ⟨⟨t0, t1, v0, w0, s1⟩, rfl⟩
      refine ⟨mem_segment.2 ⟨_, t0, t1, rfl⟩, 1 - V / d - W / d, V / d, W / d, by linarith, v0, w0,
        by ring, hpt⟩
  rw [hiff]
  rcases lt_or_gt_of_ne hd0 with hneg | hpos
  · rw [if_pos hneg, ← add_div]
    have g1 : 0 ≤ T / d ↔ T ≤ 0 := by rw [le_div_iff_of_neg hneg, zero_mul]
    have g2 : T / d ≤ 1 ↔ d ≤ T := by rw [div_le_iff_of_neg hneg, one_mul]
    have g3 : 0 ≤ V / d ↔ V ≤ 0 := by rw [le_div_iff_of_neg hneg, zero_mul]
    have g4 : 0 ≤ W / d ↔ W ≤ 0 := by rw [le_div_iff_of_neg hneg, zero_mul]
    have g5 : (V + W) / d ≤ 1 ↔ d ≤ V + W := by rw [div_le_iff_of_neg hneg, one_mul]
    rw [g1, g2, g3, g4, g5]
    split_ifs with h1 h2 h3 h4
    · exact ⟨fun hh => (nomatch hh), fun hh => absurd hh.1.1 (not_le.2 h1)⟩
    · exact ⟨fun hh => (nomatch hh), fun hh => absurd hh.1.2.1 (not_le.2 h2)⟩
    · refine ⟨fun hh => (nomatch hh), fun hh => ?_⟩
      obtain ⟨⟨_, _, v0, w0, s1⟩, _⟩ := hh
      rcases h3 with h3 | h3 <;> linarith
    · refine ⟨fun hh => (nomatch hh), fun hh => ?_⟩
      obtain ⟨⟨_, _, v0, w0, s1⟩, _⟩ := hh
      rcases h4 with h4 | h4 <;> linarith
    · push Not at h3 h4
      refine ⟨fun hh => ⟨⟨not_lt.1 h1, not_lt.1 h2, h3.1, h4.1, h4.2⟩, Option.some.inj hh⟩, ?_⟩
      rintro ⟨_, rfl⟩
      rfl
  · rw [if_neg (not_lt.2 hpos.le), ← add_div]
    have g1 : 0 ≤ T / d ↔ 0 ≤ T := by rw [le_div_iff₀ hpos, zero_mul]
    have g2 : T / d ≤ 1 ↔ T ≤ d := by rw [div_le_iff₀ hpos, one_mul]
    have g3 : 0 ≤ V / d ↔ 0 ≤ V := by rw [le_div_iff₀ hpos, zero_mul]
    have g4 : 0 ≤ W / d ↔ 0 ≤ W := by rw [le_div_iff₀ hpos, zero_mul]
    have g5 : (V + W) / d ≤ 1 ↔ V + W ≤ d := by rw [div_le_iff₀ hpos, one_mul]
    rw [g1, g2, g3, g4, g5]
    split_ifs with h1 h2 h3 h4
    · exact ⟨fun hh => (nomatch hh), fun hh => absurd hh.1.1 (not_le.2 h1)⟩
    · exact ⟨fun hh => (nomatch hh), fun hh => absurd hh.1.2.1 (not_le.2 h2)⟩
    · refine ⟨fun hh => (nomatch hh), fun hh => ?_⟩
      obtain ⟨⟨_, _, v0, w0, s1⟩, _⟩ := hh
      rcases h3 with h3 | h3 <;> linarith
    · refine ⟨fun hh => (nomatch hh), fun hh => ?_⟩
      obtain ⟨⟨_, _, v0, w0, s1⟩, _⟩ := hh
      rcases h4 with h4 | h4 <;> linarith
    · push Not at h3 h4
      refine ⟨fun hh => ⟨⟨not_lt.1 h1, not_lt.1 h2, h3.1, h4.1, h4.2⟩, Option.some.inj hh⟩, ?_⟩
      rintro ⟨_, rfl⟩
      rfl

/-- C46: if they span less, no intersection is ever found. -/
theorem c46_triangle_small (p q a b c : Fin 3 → K) (h : |spanned p q a b c| < epsilon) :
    triangle p q a b c = none := by
  rw [spanned_eq] at h
  unfold triangle
  simp only []
  rw [if_pos h]

end

/-- A segment through a triangle of the size of a hand, and one of the size of a finger nail. -/
example : triangle (K := ℚ) ![1/100, 1/100, 1/10] ![1/100, 1/100, -1/10] ![0, 0, 0] ![1/10, 0, 0]
    ![0, 1/10, 0] = some ![1/100, 1/100, 0] ∧
    epsilon ≤ |spanned (K := ℚ) ![1/100, 1/100, 1/10] ![1/100, 1/100, -1/10] ![0, 0, 0] ![1/10, 0, 0]
      ![0, 1/10, 0]| := by
  rw [spanned_eq]
  decide +kernel

/-- C46, violated for small triangles: a segment of length two centimetres through the middle of a
triangle with sides of a centimetre is not found to intersect it. -/
theorem c46_triangle_missed :
    triangle (K := ℚ) ![1/400, 1/400, 1/100] ![1/400, 1/400, -1/100] ![0, 0, 0] ![1/100, 0, 0]
      ![0, 1/100, 0] = none ∧
    (![1/400, 1/400, 0] : Fin 3 → ℚ) ∈ segment ℚ ![1/400, 1/400, 1/100] ![1/400, 1/400, -1/100] ∧
    (![1/400, 1/400, 0] : Fin 3 → ℚ) ∈ Triangle (K := ℚ) ![0, 0, 0] ![1/100, 0, 0] ![0, 1/100, 0] := by
  refine ⟨by decide +kernel, mem_segment.2 ⟨1 / 2, by norm_num, by norm_num, by decide +kernel⟩,
    1 / 2, 1 / 4, 1 / 4, by norm_num, by norm_num, by norm_num, by norm_num, by decide +kernel⟩

/-- C46: for a segment that is not a point the answer about a ball is right: the first point of the
ball on the way from `p` to `q`, or that there is none. -/
theorem c46_sphere (p q sc : Fin 3 → ℝ) (sr : ℝ) (h : p ≠ q) :
    ∃ o, sphere p q sc sr = some o ∧ Answers p q (Ball sc sr) o :=
  sphere_answers h

/-- A segment through a ball: the answer is not `none`. -/
example : ∃ x, sphere ![-3, 0, 0] ![3, 0, 0] ![0, 0, 0] 1 = some (some x) ∧
    First (![-3, 0, 0] : Fin 3 → ℝ) ![3, 0, 0] (Ball ![0, 0, 0] 1) x := by
  obtain ⟨o, ho, ha⟩ := c46_sphere ![-3, 0, 0] ![3, 0, 0] ![0, 0, 0] 1
    (by intro h; have := congrFun h 0; norm_num at this)
  cases o with
  | some x => exact ⟨x, ho, ha⟩
  | none =>
    exfalso
    have hd : Disjoint (segment ℝ (![-3, 0, 0] : Fin 3 → ℝ) ![3, 0, 0]) (Ball ![0, 0, 0] 1) := ha
    have h1 : (![0, 0, 0] : Fin 3 → ℝ) ∈ segment ℝ ![-3, 0, 0] ![3, 0, 0] := by
      refine mem_segment.2 ⟨1 / 2, by norm_num, by norm_num, ext3 ?_ ?_ ?_⟩ <;> simp [pointOnLine]
      norm_num
    have h2 : (![0, 0, 0] : Fin 3 → ℝ) ∈ Ball (![0, 0, 0] : Fin 3 → ℝ) 1 := by
      show normSq ((![0, 0, 0] : Fin 3 → ℝ) - ![0, 0, 0]) ≤ 1 ^ 2
      simp [normSq_eq]
    exact Set.disjoint_left.1 hd h1 h2

/-- C46: the test divides by zero exactly if the segment is a point. -/
theorem c46_sphere_point (p q sc : Fin 3 → ℝ) (sr : ℝ) : sphere p q sc sr = none ↔ p = q := by
  constructor
  · intro h
    by_contra hn
    obtain ⟨o, ho, _⟩ := c46_sphere p q sc sr hn
    rw [h] at ho
    exact nomatch ho
  · rintro rfl
    unfold sphere
    simp only []
    rw [if_pos]
    have : dot (sub p p) (sub p p) = 0 := by simp [dot]
    rw [this, Real.sqrt_zero]

/-- C46: the same for an ellipsoid whose half-axes are not zero. -/
theorem c46_spheroid (p q sc : Fin 3 → ℝ) (rx ry rz : ℝ) (hx : rx ≠ 0) (hy : ry ≠ 0) (hz : rz ≠ 0)
    (h : p ≠ q) :
    ∃ o, spheroid p q sc rx ry rz = some o ∧ Answers p q (Ellipsoid sc rx ry rz) o :=
  spheroid_answers hx hy hz h

/-- The square of the area spanned by the axis of a cylinder and a segment. -/
noncomputable def spannedArea (p q sa sb : Fin 3 → ℝ) : ℝ :=
  normSq (q - p) * normSq (sb - sa) - inner (q - p) (sb - sa) ^ 2

/-- C46: for a segment parallel to the axis the answer about a cylinder is right. -/
theorem c46_cylinder_parallel (sa sb p q : Fin 3 → ℝ) (r : ℝ) (hpq : p ≠ q)
    (h : spannedArea p q sa sb = 0) : Answers sa sb (Cylinder p q r) (cylinder sa sb p q r) :=
  cylinder_parallel hpq h

/-- C46: for other segments, what is found is in both. -/
theorem c46_cylinder_sound (sa sb p q x : Fin 3 → ℝ) (r : ℝ) (hpq : p ≠ q)
    (h : epsilon ≤ spannedArea p q sa sb) (hx : cylinder sa sb p q r = some x) :
    x ∈ segment ℝ sa sb ∧ x ∈ Cylinder p q r :=
  cylinder_sound hpq h hx

/-- C46, in part: the answer about a cylinder is right for a segment that is not almost parallel to the
axis, starts outside of the tube around the axis, and does not both start and enter that tube beyond
the end at `p`.  Missing are the segments that start in the tube, those that enter through the end at
`p`, and the almost parallel ones: for them the code's answer can be wrong, see below. -/
theorem c46_cylinder_partial (sa sb p q : Fin 3 → ℝ) (r : ℝ) (hpq : p ≠ q)
    (h : epsilon ≤ spannedArea p q sa sb) (hout : sa ∉ Tube p q r)
    (hent : ∀ y, First sa sb (Tube p q r) y → 0 ≤ inner (sa - p) (q - p) ∨ 0 ≤ inner (y - p) (q - p)) :
    Answers sa sb (Cylinder p q r) (cylinder sa sb p q r) :=
  cylinder_answers hpq h hout hent

/-- A segment across a cylinder meets the hypotheses. -/
example : epsilon ≤ spannedArea ![0, 0, 0] ![0, 0, 10] ![-3, 0, 5] ![3, 0, 5] ∧
    (![-3, 0, 5] : Fin 3 → ℝ) ∉ Tube (K := ℝ) ![0, 0, 0] ![0, 0, 10] 1 ∧
    0 ≤ inner ((![-3, 0, 5] : Fin 3 → ℝ) - ![0, 0, 0]) ((![0, 0, 10] : Fin 3 → ℝ) - ![0, 0, 0]) := by
  refine ⟨?_, ?_, ?_⟩
  · unfold spannedArea epsilon
    rw [normSq_eq, normSq_eq, inner_eq]
    simp
    norm_num
  · rw [mem_tube (by intro h; simpa using congrFun h 2)]
    simp [dot]
    norm_num
  · rw [inner_eq]
    simp

/-- C46, violated: a segment that starts inside the tube around the axis, in particular one that starts
inside the cylinder, is never found to intersect the cylinder, unless it is almost parallel to the axis. -/
theorem c46_cylinder_inside (sa sb p q : Fin 3 → ℝ) (r : ℝ) (hpq : p ≠ q)
    (h : epsilon ≤ spannedArea p q sa sb)
    (hin : ∃ s : ℝ, inner (sa - (p + s • (q - p))) (q - p) = 0 ∧
      normSq (sa - (p + s • (q - p))) < r ^ 2) :
    cylinder sa sb p q r = none := by
  refine cylinder_inside h ?_
  have hdd := dot_self_pos hpq
  obtain ⟨s, h1, h2⟩ := hin
  have e1 : inner (sa - (p + s • (q - p))) (q - p) =
      dot (sub sa p) (sub q p) - s * dot (sub q p) (sub q p) := by
    rw [inner_eq]
    simp only [Pi.sub_apply, Pi.add_apply, Pi.smul_apply, smul_eq_mul, dot, sub_0, sub_1, sub_2]
    ring
  have e2 : dot (sub q p) (sub q p) * (normSq (sa - (p + s • (q - p))) - r ^ 2) =
      dot (sub q p) (sub q p) * (dot (sub sa p) (sub sa p) - r * r) -
        dot (sub sa p) (sub q p) * dot (sub sa p) (sub q p) +
        (dot (sub sa p) (sub q p) - s * dot (sub q p) (sub q p)) ^ 2 := by
    rw [normSq_eq]
    simp only [Pi.sub_apply, Pi.add_apply, Pi.smul_apply, smul_eq_mul, dot, sub_0, sub_1, sub_2]
    ring
  rw [e1] at h1
  rw [h1] at e2
  have := mul_neg_of_pos_of_neg hdd (sub_neg.2 h2)
  linarith

/-- A segment from the middle of a cylinder to the outside. -/
example : (![0, 0, 5] : Fin 3 → ℝ) ∈ Cylinder (K := ℝ) ![0, 0, 0] ![0, 0, 10] 1 ∧
    cylinder ![0, 0, 5] ![3, 0, 5] ![0, 0, 0] ![0, 0, 10] 1 = none := by
  constructor
  · refine ⟨![0, 0, 5], mem_segment.2 ⟨1 / 2, by norm_num, by norm_num, ?_⟩, ?_, ?_⟩
    · refine ext3 ?_ ?_ ?_ <;> simp [pointOnLine]
      norm_num
    · simp [inner_eq]
    · simp [normSq_eq]
  · refine c46_cylinder_inside _ _ _ _ _ (by intro h; simpa using congrFun h 2) ?_ ?_
    · unfold spannedArea epsilon
      rw [normSq_eq, normSq_eq, inner_eq]
      simp
      norm_num
    · refine ⟨1 / 2, ?_, ?_⟩
      · rw [inner_eq]
        simp
        norm_num
      · rw [normSq_eq]
        simp
        norm_num

/-- C46, violated: the test at the end at `p` weighs one term twice, so that a segment through the very
centre of that end is missed. -/
theorem c46_cylinder_end :
    cylinder ![-3, 0, -3] ![3, 0, 3] ![0, 0, 0] ![0, 0, 10] 1 = none ∧
    (![0, 0, 0] : Fin 3 → ℝ) ∈ segment ℝ ![-3, 0, -3] ![3, 0, 3] ∧
    (![0, 0, 0] : Fin 3 → ℝ) ∈ Cylinder (K := ℝ) ![0, 0, 0] ![0, 0, 10] 1 := by
  refine ⟨?_, mem_segment.2 ⟨1 / 2, by norm_num, by norm_num, ?_⟩,
    ![0, 0, 0], left_mem_segment _ _ _, ?_, ?_⟩
  · rw [cylinder_eq]
    have h1 : dot (sub (![-3, 0, -3] : V3 ℝ) ![0, 0, 0]) (sub ![0, 0, 10] ![0, 0, 0]) = -30 := by
      simp [dot]
      norm_num
    have h2 : dot (sub (![3, 0, 3] : V3 ℝ) ![-3, 0, -3]) (sub ![0, 0, 10] ![0, 0, 0]) = 60 := by
      simp [dot]
      norm_num
    have h3 : dot (sub (![0, 0, 10] : V3 ℝ) ![0, 0, 0]) (sub ![0, 0, 10] ![0, 0, 0]) = 100 := by
      simp [dot]
      norm_num
    have h4 : dot (sub (![3, 0, 3] : V3 ℝ) ![-3, 0, -3]) (sub ![3, 0, 3] ![-3, 0, -3]) = 72 := by
      simp [dot]
      norm_num
    have h5 : dot (sub (![-3, 0, -3] : V3 ℝ) ![0, 0, 0]) (sub ![3, 0, 3] ![-3, 0, -3]) = -36 := by
      simp [dot]
      norm_num
    have h6 : dot (sub (![-3, 0, -3] : V3 ℝ) ![0, 0, 0]) (sub ![-3, 0, -3] ![0, 0, 0]) = 18 := by
      simp [dot]
      norm_num
    rw [h1, h2, h3, h4, h5, h6]
    have hs : Real.sqrt ((100 * -36 - 60 * -30) * (100 * -36 - 60 * -30) -
        (100 * 72 - 60 * 60) * (100 * (18 - 1 * 1) - -30 * -30)) = 600 := by
      rw [show ((100 * -36 - 60 * -30) * (100 * -36 - 60 * -30) -
        (100 * 72 - 60 * 60) * (100 * (18 - 1 * 1) - -30 * -30) : ℝ) = 600 ^ 2 by norm_num]
      exact Real.sqrt_sq (by norm_num)
    have : cylT (-30) 60 100 72 (-36) (18 - 1 * 1) = none := by
      unfold cylT epsilon
      simp only []
      rw [hs]
      norm_num
    rw [this]
    rfl
  · refine ext3 ?_ ?_ ?_ <;> simp [pointOnLine] <;> norm_num
  · simp [inner_eq]
  · simp [normSq_eq]

/-- C46, violated: whether a segment is parallel to the axis is decided by comparing a fourth power of a
length with a constant, so that next to a small cylinder all segments are taken to be parallel.  Here
an intersection is found that is as far away from the cylinder as the cylinder is long, and the segment
does not meet the cylinder anywhere. -/
theorem c46_cylinder_outside :
    ∃ x, cylinder ![0, 0, -1/1000] ![1, 0, 1/1000] ![0, 0, 0] ![0, 0, 1/1000] (1/1000) = some x ∧
      Disjoint (segment ℝ ![0, 0, -1/1000] ![1, 0, 1/1000])
        (Cylinder (K := ℝ) ![0, 0, 0] ![0, 0, 1/1000] (1/1000)) := by
  have h1 : dot (sub (![0, 0, -1/1000] : V3 ℝ) ![0, 0, 0]) (sub ![0, 0, 1/1000] ![0, 0, 0]) =
      -1/1000000 := by
    simp [dot]
    norm_num
  have h2 : dot (sub (![1, 0, 1/1000] : V3 ℝ) ![0, 0, -1/1000]) (sub ![0, 0, 1/1000] ![0, 0, 0]) =
      2/1000000 := by
    simp [dot]
    norm_num
  have h3 : dot (sub (![0, 0, 1/1000] : V3 ℝ) ![0, 0, 0]) (sub ![0, 0, 1/1000] ![0, 0, 0]) =
      1/1000000 := by
    simp [dot]
    norm_num
  have h4 : dot (sub (![1, 0, 1/1000] : V3 ℝ) ![0, 0, -1/1000]) (sub ![1, 0, 1/1000] ![0, 0, -1/1000]) =
      1 + 4/1000000 := by
    simp [dot]
    norm_num
  have h5 : dot (sub (![0, 0, -1/1000] : V3 ℝ) ![0, 0, 0]) (sub ![1, 0, 1/1000] ![0, 0, -1/1000]) =
      -2/1000000 := by
    simp [dot]
    norm_num
  have h6 : dot (sub (![0, 0, -1/1000] : V3 ℝ) ![0, 0, 0]) (sub ![0, 0, -1/1000] ![0, 0, 0]) =
      1/1000000 := by
    simp [dot]
    norm_num
  have hpq : (![0, 0, 0] : V3 ℝ) ≠ ![0, 0, 1/1000] := by intro h; simpa using congrFun h 2
  refine ⟨pointOnLine ![0, 0, -1/1000] ![1, 0, 1/1000] ((2/1000000) / (1 + 4/1000000)), ?_, ?_⟩
  · rw [cylinder_eq, h1, h2, h3, h4, h5, h6]
    have : cylT (-1/1000000) (2/1000000) (1/1000000) (1 + 4/1000000) (-2/1000000)
        (1/1000000 - 1/1000 * (1/1000)) = some ((2/1000000) / (1 + 4/1000000)) := by
      unfold cylT epsilon
      norm_num
    rw [this]
    rfl
  · rw [Set.disjoint_left]
    intro y hy hc
    obtain ⟨t, t0, t1, rfl⟩ := mem_segment.1 hy
    rw [pointOnLine_eq, (cylinder_numbers hpq t).1, h1, h2, h3, h4, h5, h6] at hc
    obtain ⟨g0, g1, g2⟩ := hc
    unfold radial at g2
    nlinarith

end Gunns.Props
