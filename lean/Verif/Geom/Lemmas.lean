import Verif.Geom.Spec
import Mathlib.Tactic.Ring
import Mathlib.Tactic.FieldSimp
import Mathlib.Tactic.Linarith
import Mathlib.Tactic.LinearCombination
import Mathlib.Tactic.FinCases
import Mathlib.Algebra.BigOperators.Fin

/-!
# Lemmas about intersections
-/

namespace Gunns.Geom

open Gunns.Geom.Spec

set_option linter.unusedSectionVars false

section
variable {K : Type _} [Field K] [LinearOrder K] [IsStrictOrderedRing K]

theorem ext3 {u v : V3 K} (h0 : u 0 = v 0) (h1 : u 1 = v 1) (h2 : u 2 = v 2) : u = v := by
  funext i
  fin_cases i
  · exact h0
  · exact h1
  · exact h2

@[simp] theorem sub_0 (u v : V3 K) : sub u v 0 = u 0 - v 0 := rfl
@[simp] theorem sub_1 (u v : V3 K) : sub u v 1 = u 1 - v 1 := rfl
@[simp] theorem sub_2 (u v : V3 K) : sub u v 2 = u 2 - v 2 := rfl
@[simp] theorem cross_0 (u v : V3 K) : cross u v 0 = u 1 * v 2 - u 2 * v 1 := rfl
@[simp] theorem cross_1 (u v : V3 K) : cross u v 1 = u 2 * v 0 - u 0 * v 2 := rfl
@[simp] theorem cross_2 (u v : V3 K) : cross u v 2 = u 0 * v 1 - u 1 * v 0 := rfl
@[simp] theorem scale_0 (s : K) (v : V3 K) : scale s v 0 = s * v 0 := rfl
@[simp] theorem scale_1 (s : K) (v : V3 K) : scale s v 1 = s * v 1 := rfl
@[simp] theorem scale_2 (s : K) (v : V3 K) : scale s v 2 = s * v 2 := rfl
@[simp] theorem pol_0 (u v : V3 K) (t : K) : pointOnLine u v t 0 = u 0 + (v 0 - u 0) * t := rfl
@[simp] theorem pol_1 (u v : V3 K) (t : K) : pointOnLine u v t 1 = u 1 + (v 1 - u 1) * t := rfl
@[simp] theorem pol_2 (u v : V3 K) (t : K) : pointOnLine u v t 2 = u 2 + (v 2 - u 2) * t := rfl

theorem inner_eq (u v : V3 K) : inner u v = u 0 * v 0 + u 1 * v 1 + u 2 * v 2 := by
  unfold inner
  rw [Fin.sum_univ_three]

theorem normSq_eq (u : V3 K) : normSq u = u 0 ^ 2 + u 1 ^ 2 + u 2 ^ 2 := by
  unfold normSq
  rw [Fin.sum_univ_three]

/-- The points of a segment. -/
theorem mem_segment {p q y : V3 K} :
    y ∈ segment K p q ↔ ∃ t, 0 ≤ t ∧ t ≤ 1 ∧ y = pointOnLine p q t := by
  rw [segment_eq_image']
  constructor
  · rintro ⟨t, ⟨h0, h1⟩, rfl⟩
    refine ⟨t, h0, h1, ext3 ?_ ?_ ?_⟩ <;>
      simp only [Pi.add_apply, Pi.smul_apply, Pi.sub_apply, smul_eq_mul, pol_0, pol_1, pol_2] <;> ring
  · rintro ⟨t, h0, h1, rfl⟩
    refine ⟨t, ⟨h0, h1⟩, ext3 ?_ ?_ ?_⟩ <;>
      simp only [Pi.add_apply, Pi.smul_apply, Pi.sub_apply, smul_eq_mul, pol_0, pol_1, pol_2] <;> ring

/-! ## Triangle -/

/-- Cramer's rule for the point in which a line meets the plane of a triangle. -/
theorem cramer (p q a b c : V3 K) (i : Fin 3) :
    dot (sub p q) (cross (sub b a) (sub c a)) * (p i - a i) =
      dot (sub p a) (cross (sub b a) (sub c a)) * (p i - q i) +
      dot (sub c a) (cross (sub p q) (sub p a)) * (b i - a i) +
      -dot (sub b a) (cross (sub p q) (sub p a)) * (c i - a i) := by
  fin_cases i <;>
    simp only [dot, sub_0, sub_1, sub_2, cross_0, cross_1, cross_2, Fin.zero_eta, Fin.mk_one,
      Fin.reduceFinMk] <;> ring

/-- What the coordinates computed are, for a point in both. -/
theorem cramer_of_mem {p q a b c : V3 K} {t u v w : K} (hu : u + v + w = 1)
    (h : pointOnLine p q t = u • a + v • b + w • c) :
    dot (sub p a) (cross (sub b a) (sub c a)) = t * dot (sub p q) (cross (sub b a) (sub c a)) ∧
    dot (sub c a) (cross (sub p q) (sub p a)) = v * dot (sub p q) (cross (sub b a) (sub c a)) ∧
    -dot (sub b a) (cross (sub p q) (sub p a)) = w * dot (sub p q) (cross (sub b a) (sub c a)) := by
  have e : ∀ i, p i - a i = t * (p i - q i) + v * (b i - a i) + w * (c i - a i) := by
    intro i
    have hi := congrFun h i
    have hp : pointOnLine p q t i = p i + (q i - p i) * t := by
      fin_cases i <;> rfl
    rw [hp] at hi
    simp only [Pi.add_apply, Pi.smul_apply, smul_eq_mul] at hi
    have hu' : u = 1 - v - w := by linear_combination hu
    rw [hu'] at hi
    linear_combination hi
  have e0 := e 0
  have e1 := e 1
  have e2 := e 2
  simp only [dot, sub_0, sub_1, sub_2, cross_0, cross_1, cross_2]
  rw [e0, e1, e2]
  refine ⟨?_, ?_, ?_⟩ <;> ring

theorem triangle_point {p q a b c : V3 K} (hd : dot (sub p q) (cross (sub b a) (sub c a)) ≠ 0) :
    let d := dot (sub p q) (cross (sub b a) (sub c a))
    let t := dot (sub p a) (cross (sub b a) (sub c a)) / d
    let v := dot (sub c a) (cross (sub p q) (sub p a)) / d
    let w := -dot (sub b a) (cross (sub p q) (sub p a)) / d
    pointOnLine p q t = (1 - v - w) • a + v • b + w • c := by
  intro d t v w
  have key : ∀ i, p i - a i = t * (p i - q i) + v * (b i - a i) + w * (c i - a i) := by
    intro i
    have := cramer p q a b c i
    show p i - a i = _ / d * (p i - q i) + _ / d * (b i - a i) + _ / d * (c i - a i)
    have hd' : d ≠ 0 := hd
    rw [div_mul_eq_mul_div, div_mul_eq_mul_div, div_mul_eq_mul_div, ← add_div, ← add_div, eq_div_iff hd']
    linear_combination this
  have k0 := key 0
  have k1 := key 1
  have k2 := key 2
  refine ext3 ?_ ?_ ?_ <;>
    simp only [Pi.add_apply, Pi.smul_apply, smul_eq_mul, pol_0, pol_1, pol_2]
  · linear_combination k0
  · linear_combination k1
  · linear_combination k2

/-! ## First points -/

theorem mem_segment_ray {p u y : V3 K} {L : K} (hL : 0 ≤ L) :
    y ∈ segment K p (p + L • u) ↔ ∃ s, 0 ≤ s ∧ s ≤ L ∧ y = p + s • u := by
  rw [segment_eq_image']
  constructor
  · rintro ⟨t, ⟨h0, h1⟩, rfl⟩
    refine ⟨t * L, mul_nonneg h0 hL, by nlinarith, ?_⟩
    show p + t • (p + L • u - p) = _
    rw [add_sub_cancel_left, smul_smul]
  · rintro ⟨s, h0, h1, rfl⟩
    rcases hL.eq_or_lt with h | h
    · have : s = 0 := le_antisymm (by rw [h]; exact h1) h0
      refine ⟨0, ⟨le_rfl, zero_le_one⟩, ?_⟩
      subst this
      simp
    · refine ⟨s / L, ⟨div_nonneg h0 hL, (div_le_one h).2 h1⟩, ?_⟩
      show p + (s / L) • (p + L • u - p) = _
      rw [add_sub_cancel_left, smul_smul, div_mul_cancel₀ _ h.ne']

theorem first_of {p u : V3 K} {S : Set (V3 K)} {L t : K} (h0 : 0 ≤ t) (h1 : t ≤ L) (ht : p + t • u ∈ S)
    (hs : ∀ s, 0 ≤ s → s < t → p + s • u ∉ S) : First p (p + L • u) S (p + t • u) := by
  refine ⟨(mem_segment_ray (h0.trans h1)).2 ⟨t, h0, h1, rfl⟩, ht, ?_⟩
  intro y hy hS
  obtain ⟨s, s0, s1, rfl⟩ := (mem_segment_ray h0).1 hy
  rcases s1.eq_or_lt with h | h
  · rw [h]
  · exact absurd hS (hs s s0 h)

theorem disjoint_of {p u : V3 K} {S : Set (V3 K)} {L : K} (hL : 0 ≤ L)
    (hs : ∀ s, 0 ≤ s → s ≤ L → p + s • u ∉ S) : Disjoint (segment K p (p + L • u)) S := by
  rw [Set.disjoint_left]
  intro y hy
  obtain ⟨s, s0, s1, rfl⟩ := (mem_segment_ray hL).1 hy
  exact hs s s0 s1

theorem pointOnLine_eq (p q : V3 K) (t : K) : pointOnLine p q t = p + t • (q - p) := by
  refine ext3 ?_ ?_ ?_ <;>
    simp only [Pi.add_apply, Pi.smul_apply, Pi.sub_apply, smul_eq_mul, pol_0, pol_1, pol_2] <;> ring

end

/-! ## Cylinder -/

/-- Position along the axis of the point at `t`, times the length of the axis. -/
def axial (md nd t : ℝ) : ℝ := md + t * nd

/-- Square of the distance from the axis, less that of the radius, times the square of the length of
the axis. -/
def radial (dd nd nn md mn k t : ℝ) : ℝ := dd * (k + 2 * t * mn + t * t * nn) - (md + t * nd) ^ 2

theorem dot_self_pos {p q : V3 ℝ} (hpq : p ≠ q) : 0 < dot (sub q p) (sub q p) := by
  by_contra hn
  apply hpq
  have h0 := sq_nonneg (q 0 - p 0)
  have h1 := sq_nonneg (q 1 - p 1)
  have h2 := sq_nonneg (q 2 - p 2)
  have hs : (q 0 - p 0) ^ 2 + (q 1 - p 1) ^ 2 + (q 2 - p 2) ^ 2 ≤ 0 := by
    have : dot (sub q p) (sub q p) = (q 0 - p 0) ^ 2 + (q 1 - p 1) ^ 2 + (q 2 - p 2) ^ 2 := by
      simp only [dot, sub_0, sub_1, sub_2]; ring
    rw [← this]; exact not_lt.1 hn
  refine ext3 ?_ ?_ ?_
  · have := pow_eq_zero_iff (two_ne_zero) |>.1 (show (q 0 - p 0) ^ 2 = 0 by linarith)
    linarith
  · have := pow_eq_zero_iff (two_ne_zero) |>.1 (show (q 1 - p 1) ^ 2 = 0 by linarith)
    linarith
  · have := pow_eq_zero_iff (two_ne_zero) |>.1 (show (q 2 - p 2) ^ 2 = 0 by linarith)
    linarith

/-- A point of the line is in the cylinder if its two coordinates are in range. -/
theorem mem_cylinder {sa sb p q : V3 ℝ} {r t : ℝ} (hpq : p ≠ q) :
    let d := sub q p
    let m := sub sa p
    let n := sub sb sa
    pointOnLine sa sb t ∈ Cylinder p q r ↔
      0 ≤ axial (dot m d) (dot n d) t ∧ axial (dot m d) (dot n d) t ≤ dot d d ∧
      radial (dot d d) (dot n d) (dot n n) (dot m d) (dot m n) (dot m m - r * r) t ≤ 0 := by
  intro d m n
  have hdd : 0 < dot d d := dot_self_pos hpq
  have hin : ∀ s, inner (pointOnLine sa sb t - pointOnLine p q s) (q - p) =
      axial (dot m d) (dot n d) t - s * dot d d := by
    intro s
    rw [inner_eq]
    simp only [Pi.sub_apply, pol_0, pol_1, pol_2, axial, d, m, n, dot, sub_0, sub_1, sub_2]
    ring
  have hns : ∀ s, dot d d * (normSq (pointOnLine sa sb t - pointOnLine p q s) - r ^ 2) =
      radial (dot d d) (dot n d) (dot n n) (dot m d) (dot m n) (dot m m - r * r) t +
        (axial (dot m d) (dot n d) t - s * dot d d) ^ 2 := by
    intro s
    rw [normSq_eq]
    simp only [Pi.sub_apply, pol_0, pol_1, pol_2, axial, radial, d, m, n, dot, sub_0, sub_1, sub_2]
    ring
  constructor
  · rintro ⟨x, hx, h1, h2⟩
    obtain ⟨s, s0, s1, rfl⟩ := mem_segment.1 hx
    rw [hin] at h1
    have ha : axial (dot m d) (dot n d) t = s * dot d d := by linarith
    refine ⟨by rw [ha]; positivity, ?_, ?_⟩
    · rw [ha]
      calc s * dot d d ≤ 1 * dot d d := mul_le_mul_of_nonneg_right s1 hdd.le
        _ = dot d d := one_mul _
    · have := hns s
      rw [h1] at this
      have h3 : dot d d * (normSq (pointOnLine sa sb t - pointOnLine p q s) - r ^ 2) ≤ 0 :=
        mul_nonpos_of_nonneg_of_nonpos hdd.le (by linarith)
      linarith
  · rintro ⟨h0, h1, h2⟩
    set s := axial (dot m d) (dot n d) t / dot d d with hs
    have hz : axial (dot m d) (dot n d) t - s * dot d d = 0 := by
      rw [hs, div_mul_cancel₀ _ hdd.ne', sub_self]
    refine ⟨pointOnLine p q s, mem_segment.2 ⟨s, div_nonneg h0 hdd.le, (div_le_one hdd).2 h1, rfl⟩,
      (hin s).trans hz, ?_⟩
    have := hns s
    rw [hz] at this
    by_contra hn
    have : 0 < dot d d * (normSq (pointOnLine sa sb t - pointOnLine p q s) - r ^ 2) :=
      mul_pos hdd (by linarith [not_le.1 hn])
    linarith

/-- `a` is never negative. -/
theorem cauchy (d n : V3 ℝ) : 0 ≤ dot d d * dot n n - dot n d * dot n d := by
  have : dot d d * dot n n - dot n d * dot n d =
      (d 0 * n 1 - d 1 * n 0) ^ 2 + (d 0 * n 2 - d 2 * n 0) ^ 2 + (d 1 * n 2 - d 2 * n 1) ^ 2 := by
    simp only [dot]; ring
  rw [this]
  positivity

/-- If `a` is zero the segment is parallel to the axis, and `b` is zero too. -/
theorem parallel {d n m : V3 ℝ} (h : dot d d * dot n n - dot n d * dot n d = 0) :
    dot d d * dot m n = dot n d * dot m d := by
  have e : (d 0 * n 1 - d 1 * n 0) ^ 2 + (d 0 * n 2 - d 2 * n 0) ^ 2 + (d 1 * n 2 - d 2 * n 1) ^ 2 = 0 := by
    rw [← h]; simp only [dot]; ring
  have q0 := sq_nonneg (d 0 * n 1 - d 1 * n 0)
  have q1 := sq_nonneg (d 0 * n 2 - d 2 * n 0)
  have q2 := sq_nonneg (d 1 * n 2 - d 2 * n 1)
  have z0 := pow_eq_zero_iff (two_ne_zero) |>.1 (show (d 0 * n 1 - d 1 * n 0) ^ 2 = 0 by linarith)
  have z1 := pow_eq_zero_iff (two_ne_zero) |>.1 (show (d 0 * n 2 - d 2 * n 0) ^ 2 = 0 by linarith)
  have z2 := pow_eq_zero_iff (two_ne_zero) |>.1 (show (d 1 * n 2 - d 2 * n 1) ^ 2 = 0 by linarith)
  simp only [dot]
  linear_combination (d 0 * m 1 - d 1 * m 0) * z0 + (d 0 * m 2 - d 2 * m 0) * z1 +
    (d 1 * m 2 - d 2 * m 1) * z2

/-! ## Ball -/

theorem sphere_answers {p q sc : V3 ℝ} {sr : ℝ} (hpq : p ≠ q) :
    ∃ o, sphere p q sc sr = some o ∧ Answers p q (Ball sc sr) o := by
  have hdd := dot_self_pos hpq
  have hdist : 0 < Real.sqrt (dot (sub q p) (sub q p)) := Real.sqrt_pos.2 hdd
  unfold sphere
  simp only []
  rw [if_neg hdist.ne']
  set L := Real.sqrt (dot (sub q p) (sub q p)) with hL
  set u := scale (1 / L) (sub q p) with hu
  have hLL : L * L = dot (sub q p) (sub q p) := Real.mul_self_sqrt hdd.le
  have huu : u 0 * u 0 + u 1 * u 1 + u 2 * u 2 = 1 := by
    have : u 0 * u 0 + u 1 * u 1 + u 2 * u 2 = dot (sub q p) (sub q p) / (L * L) := by
      simp only [hu, scale_0, scale_1, scale_2, dot]
      field_simp
    rw [this, hLL, div_self hdd.ne']
  have hq : q = p + L • u := by
    refine ext3 ?_ ?_ ?_ <;>
      simp only [Pi.add_apply, Pi.smul_apply, smul_eq_mul, hu, scale_0, scale_1, scale_2, sub_0, sub_1,
        sub_2] <;> field_simp <;> ring
  set b := dot (sub p sc) u with hb
  set c := dot (sub p sc) (sub p sc) - sr * sr with hc
  have hf : ∀ s, p + s • u ∈ Ball sc sr ↔ (s + b) ^ 2 ≤ b * b - c := by
    intro s
    have : normSq (p + s • u - sc) - sr ^ 2 = (s + b) ^ 2 - (b * b - c) := by
      rw [normSq_eq]
      simp only [Pi.add_apply, Pi.smul_apply, Pi.sub_apply, smul_eq_mul, hb, hc, dot, sub_0, sub_1, sub_2]
      linear_combination s ^ 2 * huu
    show normSq (p + s • u - sc) ≤ sr ^ 2 ↔ _
    constructor <;> intro h <;> linarith
  have hpt : ∀ t, ![p 0 + t * u 0, p 1 + t * u 1, p 2 + t * u 2] = p + t • u := by
    intro t
    refine ext3 ?_ ?_ ?_ <;> rfl
  rw [hq]
  split_ifs with h1 h2 h3 h4 h5 h6
  · refine ⟨none, rfl, disjoint_of hdist.le ?_⟩
    intro s s0 _ hm
    have := (hf s).1 hm
    nlinarith [h1.1, h1.2, mul_nonneg s0 h1.2.le, sq_nonneg s]
  · refine ⟨none, rfl, disjoint_of hdist.le ?_⟩
    intro s s0 _ hm
    have := (hf s).1 hm
    linarith [sq_nonneg (s + b)]
  all_goals
    have hd0 := not_lt.1 h2
    have hr0 := Real.sqrt_nonneg (b * b - c)
    have hrr := Real.mul_self_sqrt hd0
    set R := Real.sqrt (b * b - c) with hR
  · refine ⟨none, rfl, disjoint_of hdist.le ?_⟩
    intro s s0 _ hm
    have := (hf s).1 hm
    have h8 : R < s + b := by linarith [h3.2]
    nlinarith
  · exact absurd h5 (not_lt.2 hdist.le)
  · refine ⟨_, rfl, ?_⟩
    rw [hpt]
    refine first_of le_rfl hdist.le ?_ (fun s s0 s1 => absurd s1 (not_lt.2 s0))
    rw [hf]
    have hb1 : b ≤ R := by
      by_contra hn
      exact h3 ⟨h4, not_le.1 hn⟩
    have hb2 : -R < b := by linarith
    nlinarith
  · refine ⟨none, rfl, disjoint_of hdist.le ?_⟩
    intro s s0 s1 hm
    have := (hf s).1 hm
    have h8 : s + b < -R := by linarith
    nlinarith
  · refine ⟨_, rfl, ?_⟩
    rw [hpt]
    refine first_of (not_lt.1 h4) (not_lt.1 h6) ?_ ?_
    · rw [hf]
      have : -b - R + b = -R := by ring
      rw [this]
      nlinarith
    · intro s s0 s1 hm
      have := (hf s).1 hm
      have h8 : s + b < -R := by linarith
      nlinarith

end Gunns.Geom
