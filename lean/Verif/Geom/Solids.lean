import Verif.Geom.Lemmas

/-!
# Ellipsoid and cylinder
-/

namespace Gunns.Geom

open Gunns.Geom.Spec

/-! ## Ellipsoid -/

/-- Back from the coordinates in which the ellipsoid is the unit ball. -/
def back (sc : V3 ℝ) (rx ry rz : ℝ) (x : V3 ℝ) : V3 ℝ :=
  ![x 0 * rx + sc 0, x 1 * ry + sc 1, x 2 * rz + sc 2]

theorem back_line (sc : V3 ℝ) (rx ry rz : ℝ) (p q : V3 ℝ) (t : ℝ) :
    back sc rx ry rz (pointOnLine p q t) = pointOnLine (back sc rx ry rz p) (back sc rx ry rz q) t := by
  refine ext3 ?_ ?_ ?_
  · show pointOnLine p q t 0 * rx + sc 0 = _ + (_ - _) * t
    rw [pol_0]
    show _ = (p 0 * rx + sc 0) + ((q 0 * rx + sc 0) - (p 0 * rx + sc 0)) * t
    ring
  · show pointOnLine p q t 1 * ry + sc 1 = _ + (_ - _) * t
    rw [pol_1]
    show _ = (p 1 * ry + sc 1) + ((q 1 * ry + sc 1) - (p 1 * ry + sc 1)) * t
    ring
  · show pointOnLine p q t 2 * rz + sc 2 = _ + (_ - _) * t
    rw [pol_2]
    show _ = (p 2 * rz + sc 2) + ((q 2 * rz + sc 2) - (p 2 * rz + sc 2)) * t
    ring

theorem back_mem {sc : V3 ℝ} {rx ry rz : ℝ} (hx : rx ≠ 0) (hy : ry ≠ 0) (hz : rz ≠ 0) (x : V3 ℝ) :
    back sc rx ry rz x ∈ Ellipsoid sc rx ry rz ↔ x ∈ Ball (![0, 0, 0] : V3 ℝ) 1 := by
  show ((x 0 * rx + sc 0 - sc 0) / rx) ^ 2 + ((x 1 * ry + sc 1 - sc 1) / ry) ^ 2 +
    ((x 2 * rz + sc 2 - sc 2) / rz) ^ 2 ≤ 1 ↔ normSq (x - ![0, 0, 0]) ≤ 1 ^ 2
  rw [normSq_eq, add_sub_cancel_right, add_sub_cancel_right, add_sub_cancel_right,
    mul_div_cancel_right₀ _ hx, mul_div_cancel_right₀ _ hy, mul_div_cancel_right₀ _ hz]
  simp

theorem spheroid_answers {p q sc : V3 ℝ} {rx ry rz : ℝ} (hx : rx ≠ 0) (hy : ry ≠ 0) (hz : rz ≠ 0)
    (hpq : p ≠ q) :
    ∃ o, spheroid p q sc rx ry rz = some o ∧ Answers p q (Ellipsoid sc rx ry rz) o := by
  unfold spheroid
  rw [if_neg (by simp [hx, hy, hz])]
  simp only []
  set p0 : V3 ℝ := ![(p 0 - sc 0) / rx, (p 1 - sc 1) / ry, (p 2 - sc 2) / rz] with hp0
  set q0 : V3 ℝ := ![(q 0 - sc 0) / rx, (q 1 - sc 1) / ry, (q 2 - sc 2) / rz] with hq0
  have bp : back sc rx ry rz p0 = p := by
    refine ext3 ?_ ?_ ?_
    · show (p 0 - sc 0) / rx * rx + sc 0 = p 0
      rw [div_mul_cancel₀ _ hx, sub_add_cancel]
    · show (p 1 - sc 1) / ry * ry + sc 1 = p 1
      rw [div_mul_cancel₀ _ hy, sub_add_cancel]
    · show (p 2 - sc 2) / rz * rz + sc 2 = p 2
      rw [div_mul_cancel₀ _ hz, sub_add_cancel]
  have bq : back sc rx ry rz q0 = q := by
    refine ext3 ?_ ?_ ?_
    · show (q 0 - sc 0) / rx * rx + sc 0 = q 0
      rw [div_mul_cancel₀ _ hx, sub_add_cancel]
    · show (q 1 - sc 1) / ry * ry + sc 1 = q 1
      rw [div_mul_cancel₀ _ hy, sub_add_cancel]
    · show (q 2 - sc 2) / rz * rz + sc 2 = q 2
      rw [div_mul_cancel₀ _ hz, sub_add_cancel]
  have hne : p0 ≠ q0 := by
    intro h
    apply hpq
    rw [← bp, ← bq, h]
  obtain ⟨o, ho, ha⟩ := sphere_answers (sc := ![0, 0, 0]) (sr := 1) hne
  rw [ho]
  cases o with
  | none =>
    refine ⟨none, rfl, ?_⟩
    show Disjoint _ _
    have ha' : Disjoint (segment ℝ p0 q0) (Ball (![0, 0, 0] : V3 ℝ) 1) := ha
    rw [Set.disjoint_left] at ha' ⊢
    intro y hy' hm
    obtain ⟨t, t0, t1, rfl⟩ := mem_segment.1 hy'
    rw [← bp, ← bq, ← back_line, back_mem hx hy hz] at hm
    exact ha' (mem_segment.2 ⟨t, t0, t1, rfl⟩) hm
  | some x =>
    refine ⟨_, rfl, ?_⟩
    obtain ⟨f1, f2, f3⟩ : First p0 q0 (Ball (![0, 0, 0] : V3 ℝ) 1) x := ha
    show First p q _ (back sc rx ry rz x)
    refine ⟨?_, (back_mem hx hy hz x).2 f2, ?_⟩
    · obtain ⟨t, t0, t1, rfl⟩ := mem_segment.1 f1
      refine mem_segment.2 ⟨t, t0, t1, ?_⟩
      rw [back_line, bp, bq]
    · intro y hy' hm
      obtain ⟨t, t0, t1, rfl⟩ := mem_segment.1 hy'
      rw [← bp, ← back_line] at hm ⊢
      rw [back_mem hx hy hz] at hm
      rw [f3 _ (mem_segment.2 ⟨t, t0, t1, rfl⟩) hm]

/-! ## Cylinder -/

/-- The square of the area spanned by axis and segment. -/
theorem area_eq (u v : V3 ℝ) :
    normSq u * normSq v - inner u v ^ 2 = dot u u * dot v v - dot v u * dot v u := by
  rw [normSq_eq, normSq_eq, inner_eq]
  simp only [dot]
  ring

theorem sub_eq (u v : V3 ℝ) : sub u v = u - v := ext3 rfl rfl rfl

/-- Being in the tube. -/
theorem mem_tube {y p q : V3 ℝ} {r : ℝ} (hpq : p ≠ q) :
    y ∈ Tube p q r ↔ dot (sub q p) (sub q p) * (dot (sub y p) (sub y p) - r * r) -
      dot (sub y p) (sub q p) * dot (sub y p) (sub q p) ≤ 0 := by
  have hdd := dot_self_pos hpq
  set dd := dot (sub q p) (sub q p) with hdd'
  set md := dot (sub y p) (sub q p) with hmd
  have hin : ∀ s : ℝ, inner (y - (p + s • (q - p))) (q - p) = md - s * dd := by
    intro s
    rw [inner_eq]
    simp only [Pi.sub_apply, Pi.add_apply, Pi.smul_apply, smul_eq_mul, hmd, hdd', dot, sub_0, sub_1, sub_2]
    ring
  have hns : ∀ s : ℝ, dd * (normSq (y - (p + s • (q - p))) - r ^ 2) =
      dd * (dot (sub y p) (sub y p) - r * r) - md * md + (md - s * dd) ^ 2 := by
    intro s
    rw [normSq_eq]
    simp only [Pi.sub_apply, Pi.add_apply, Pi.smul_apply, smul_eq_mul, hmd, hdd', dot, sub_0, sub_1, sub_2]
    ring
  constructor
  · rintro ⟨s, h1, h2⟩
    have := hns s
    rw [hin] at h1
    rw [h1] at this
    have h3 : dd * (normSq (y - (p + s • (q - p))) - r ^ 2) ≤ 0 :=
      mul_nonpos_of_nonneg_of_nonpos hdd.le (by linarith)
    linarith
  · intro h
    have hz : md - md / dd * dd = 0 := by rw [div_mul_cancel₀ _ hdd.ne', sub_self]
    refine ⟨md / dd, (hin _).trans hz, ?_⟩
    have := hns (md / dd)
    rw [hz] at this
    by_contra hn
    have : 0 < dd * (normSq (y - (p + (md / dd) • (q - p))) - r ^ 2) :=
      mul_pos hdd (by linarith [not_le.1 hn])
    linarith

theorem mix_lt {x y z s : ℝ} (h1 : x < z) (h2 : x + y < z) (s0 : 0 ≤ s) (s1 : s ≤ 1) : x + s * y < z := by
  rcases le_total y 0 with h | h
  · nlinarith [mul_nonneg s0 (neg_nonneg.2 h)]
  · nlinarith [mul_nonneg (sub_nonneg.2 s1) h]

theorem mix_gt {x y z s : ℝ} (h1 : z < x) (h2 : z < x + y) (s0 : 0 ≤ s) (s1 : s ≤ 1) : z < x + s * y := by
  rcases le_total y 0 with h | h
  · nlinarith [mul_nonneg (sub_nonneg.2 s1) (neg_nonneg.2 h)]
  · nlinarith [mul_nonneg s0 h]

/-- If the area is zero the answer is right. -/
theorem cylinder_parallel {sa sb p q : V3 ℝ} {r : ℝ} (hpq : p ≠ q)
    (h : normSq (q - p) * normSq (sb - sa) - inner (q - p) (sb - sa) ^ 2 = 0) :
    Answers sa sb (Cylinder p q r) (cylinder sa sb p q r) := by
  rw [area_eq, ← sub_eq, ← sub_eq] at h
  have hdd := dot_self_pos hpq
  have hb := parallel (m := sub sa p) h
  have hmem : ∀ t, sa + t • (sb - sa) ∈ Cylinder p q r ↔
      0 ≤ axial (dot (sub sa p) (sub q p)) (dot (sub sb sa) (sub q p)) t ∧
      axial (dot (sub sa p) (sub q p)) (dot (sub sb sa) (sub q p)) t ≤ dot (sub q p) (sub q p) ∧
      radial (dot (sub q p) (sub q p)) (dot (sub sb sa) (sub q p)) (dot (sub sb sa) (sub sb sa))
        (dot (sub sa p) (sub q p)) (dot (sub sa p) (sub sb sa))
        (dot (sub sa p) (sub sa p) - r * r) t ≤ 0 := fun t => by
    rw [← pointOnLine_eq]
    exact mem_cylinder (sa := sa) (sb := sb) (r := r) (t := t) hpq
  unfold cylinder
  simp only []
  set d := sub q p with hd
  set m := sub sa p with hm
  set n := sub sb sa with hn
  have hsb : sb = sa + (1 : ℝ) • (sb - sa) := by simp
  have hAns : ∀ o, Answers sa (sa + (1 : ℝ) • (sb - sa)) (Cylinder p q r) o →
      Answers sa sb (Cylinder p q r) o := fun o ho => by rw [hsb]; exact ho
  apply hAns
  have hax : ∀ t, axial (dot m d) (dot n d) t = dot m d + t * dot n d := fun _ => rfl
  have hra : ∀ t, radial (dot d d) (dot n d) (dot n n) (dot m d) (dot m n) (dot m m - r * r) t =
      dot d d * (dot m m - r * r) - dot m d * dot m d := by
    intro t
    unfold radial
    linear_combination 2 * t * hb + t ^ 2 * h
  simp only [hax, hra] at hmem
  rw [h]
  have heps : |(0 : ℝ)| < epsilon := by
    unfold epsilon
    rw [abs_zero]
    norm_num
  split_ifs with h1 h2 h3 h4 h5
  · refine disjoint_of zero_le_one ?_
    intro s s0 s1 hm'
    obtain ⟨g0, _, _⟩ := (hmem s).1 hm'
    exact absurd g0 (not_le.2 (mix_lt h1.1 h1.2 s0 s1))
  · refine disjoint_of zero_le_one ?_
    intro s s0 s1 hm'
    obtain ⟨_, g0, _⟩ := (hmem s).1 hm'
    exact absurd g0 (not_le.2 (mix_gt h2.1 h2.2 s0 s1))
  · refine disjoint_of zero_le_one ?_
    intro s s0 s1 hm'
    obtain ⟨_, _, g0⟩ := (hmem s).1 hm'
    linarith
  all_goals
    rw [pointOnLine_eq]
    have hc := not_lt.1 h3
  · -- entering through the end at `p`
    have hnd : 0 < dot n d := by
      by_contra hnn
      exact h1 ⟨h4, by linarith⟩
    have hge : 0 ≤ dot m d + dot n d := by
      by_contra hnn
      exact h1 ⟨h4, not_le.1 hnn⟩
    have hnn : 0 < dot n n := by
      by_contra hz
      nlinarith [mul_pos hnd hnd]
    have ht : -dot m n / dot n n = -dot m d / dot n d := by
      rw [div_eq_div_iff hnn.ne' hnd.ne']
      apply mul_left_cancel₀ hdd.ne'
      linear_combination (-dot n d) * hb + (dot m d) * h
    rw [ht]
    have hat : dot m d + -dot m d / dot n d * dot n d = 0 := by
      rw [div_mul_cancel₀ _ hnd.ne', add_neg_cancel]
    refine first_of (div_nonneg (by linarith) hnd.le) ((div_le_one hnd).2 (by linarith)) ?_ ?_
    · rw [hmem, hat]
      exact ⟨le_rfl, hdd.le, hc⟩
    · intro s s0 s1 hm'
      obtain ⟨g0, _, _⟩ := (hmem s).1 hm'
      rw [lt_div_iff₀ hnd] at s1
      linarith
  · -- entering through the end at `q`
    have hnd : dot n d < 0 := by
      by_contra hnn
      exact h2 ⟨h5, by linarith⟩
    have hge : dot m d + dot n d ≤ dot d d := by
      by_contra hnn
      exact h2 ⟨h5, not_le.1 hnn⟩
    have hnn : 0 < dot n n := by
      by_contra hz
      nlinarith [mul_pos_of_neg_of_neg hnd hnd]
    have ht : (dot n d - dot m n) / dot n n = (dot d d - dot m d) / dot n d := by
      rw [div_eq_div_iff hnn.ne' hnd.ne]
      apply mul_left_cancel₀ hdd.ne'
      linear_combination (-dot n d) * hb + (dot m d - dot d d) * h
    rw [ht]
    have hat : dot m d + (dot d d - dot m d) / dot n d * dot n d = dot d d := by
      rw [div_mul_cancel₀ _ hnd.ne]
      ring
    refine first_of (div_nonneg_of_nonpos (by linarith) hnd.le) ((div_le_one_of_neg hnd).2 (by linarith)) ?_ ?_
    · rw [hmem, hat]
      exact ⟨hdd.le, le_rfl, hc⟩
    · intro s s0 s1 hm'
      obtain ⟨_, g0, _⟩ := (hmem s).1 hm'
      rw [lt_div_iff_of_neg hnd] at s1
      linarith
  · refine first_of le_rfl zero_le_one ?_ (fun s s0 s1 => absurd s1 (not_lt.2 s0))
    rw [hmem, zero_mul, add_zero]
    exact ⟨not_lt.1 h4, not_lt.1 h5, hc⟩

/-- The numbers of a segment that is not parallel to the axis: membership in the cylinder and in the
tube, as conditions on the parameter. -/
theorem cylinder_numbers {sa sb p q : V3 ℝ} {r : ℝ} (hpq : p ≠ q) (t : ℝ) :
    (sa + t • (sb - sa) ∈ Cylinder p q r ↔
      0 ≤ dot (sub sa p) (sub q p) + t * dot (sub sb sa) (sub q p) ∧
      dot (sub sa p) (sub q p) + t * dot (sub sb sa) (sub q p) ≤ dot (sub q p) (sub q p) ∧
      radial (dot (sub q p) (sub q p)) (dot (sub sb sa) (sub q p)) (dot (sub sb sa) (sub sb sa))
        (dot (sub sa p) (sub q p)) (dot (sub sa p) (sub sb sa))
        (dot (sub sa p) (sub sa p) - r * r) t ≤ 0) ∧
    (sa + t • (sb - sa) ∈ Tube p q r ↔
      radial (dot (sub q p) (sub q p)) (dot (sub sb sa) (sub q p)) (dot (sub sb sa) (sub sb sa))
        (dot (sub sa p) (sub q p)) (dot (sub sa p) (sub sb sa))
        (dot (sub sa p) (sub sa p) - r * r) t ≤ 0) ∧
    inner (sa + t • (sb - sa) - p) (q - p) =
      dot (sub sa p) (sub q p) + t * dot (sub sb sa) (sub q p) := by
  refine ⟨?_, ?_, ?_⟩
  · rw [← pointOnLine_eq]
    exact mem_cylinder (sa := sa) (sb := sb) (r := r) (t := t) hpq
  · rw [mem_tube hpq]
    apply iff_of_eq
    congr 1
    simp only [radial, dot, sub_0, sub_1, sub_2, Pi.add_apply, Pi.smul_apply, Pi.sub_apply, smul_eq_mul]
    ring
  · rw [inner_eq]
    simp only [dot, sub_0, sub_1, sub_2, Pi.add_apply, Pi.smul_apply, Pi.sub_apply, smul_eq_mul]
    ring

theorem epsilon_pos : (0 : ℝ) < epsilon := by
  unfold epsilon
  norm_num

/-- The parameter found. -/
noncomputable def cylT (md nd dd nn mn k : ℝ) : Option ℝ :=
  if md < 0 ∧ md + nd < 0 then none
  else if md > dd ∧ md + nd > dd then none
  else if |dd * nn - nd * nd| < epsilon then
    if dd * k - md * md > 0 then none
    else some (if md < 0 then -mn / nn else if md > dd then (nd - mn) / nn else 0)
  else
    if (dd * mn - nd * md) * (dd * mn - nd * md) - (dd * nn - nd * nd) * (dd * k - md * md) < 0 then none
    else
      let t := (-(dd * mn - nd * md) - Real.sqrt ((dd * mn - nd * md) * (dd * mn - nd * md) -
        (dd * nn - nd * nd) * (dd * k - md * md))) / (dd * nn - nd * nd)
      if t < 0 ∨ t > 1 then none
      else if md + t * nd < 0 then
        if nd ≤ 0 then none
        else if k + 2 * (-md / nd) * (mn + (-md / nd) * nn) ≤ 0 then some (-md / nd) else none
      else if md + t * nd > dd then
        if nd ≥ 0 then none
        else if k + dd - 2 * md + (dd - md) / nd * (2 * (mn - nd) + (dd - md) / nd * nn) ≤ 0 then
          some ((dd - md) / nd)
        else none
      else some t

theorem cylinder_eq (sa sb p q : V3 ℝ) (r : ℝ) :
    cylinder sa sb p q r = (cylT (dot (sub sa p) (sub q p)) (dot (sub sb sa) (sub q p))
      (dot (sub q p) (sub q p)) (dot (sub sb sa) (sub sb sa)) (dot (sub sa p) (sub sb sa))
      (dot (sub sa p) (sub sa p) - r * r)).map (pointOnLine sa sb) := by
  unfold cylinder cylT
  simp only []
  generalize dot (sub sa p) (sub q p) = md
  generalize dot (sub sb sa) (sub q p) = nd
  generalize dot (sub q p) (sub q p) = dd
  generalize dot (sub sb sa) (sub sb sa) = nn
  generalize dot (sub sa p) (sub sb sa) = mn
  generalize dot (sub sa p) (sub sa p) - r * r = k
  simp only [apply_ite (Option.map (pointOnLine sa sb)), Option.map_none, Option.map_some]

/-- The quadratic, with the square completed. -/
theorem radial_sq {dd nd nn md mn k a b discr : ℝ} (ha : a = dd * nn - nd * nd)
    (hb : b = dd * mn - nd * md) (hd : discr = b * b - a * (dd * k - md * md)) (h : 0 < a) (t : ℝ) :
    radial dd nd nn md mn k t ≤ 0 ↔ (a * t + b) ^ 2 ≤ discr := by
  have e : a * radial dd nd nn md mn k t = (a * t + b) ^ 2 - discr := by
    rw [hd, hb, ha]
    unfold radial
    ring
  constructor
  · intro ht
    have := mul_nonpos_of_nonneg_of_nonpos h.le ht
    linarith
  · intro ht
    by_contra hn'
    have := mul_pos h (not_le.1 hn')
    linarith

/-- At the end at `q` the test is for the distance. -/
theorem radial_q {dd nd nn md mn k u : ℝ} (hdd : 0 < dd) (hu : md + u * nd = dd) :
    radial dd nd nn md mn k u ≤ 0 ↔ k + dd - 2 * md + u * (2 * (mn - nd) + u * nn) ≤ 0 := by
  have e : radial dd nd nn md mn k u = dd * (k + dd - 2 * md + u * (2 * (mn - nd) + u * nn)) := by
    unfold radial
    have : k + dd - 2 * md + u * (2 * (mn - nd) + u * nn) = k + 2 * u * mn + u * u * nn + dd - 2 * dd := by
      linear_combination (-2) * hu
    rw [this, hu]
    ring
  rw [e]
  constructor
  · intro h
    by_contra hn
    exact absurd h (not_le.2 (mul_pos hdd (not_le.1 hn)))
  · intro h
    exact mul_nonpos_of_nonneg_of_nonpos hdd.le h

/-- At the end at `p` the test is stronger than that for the distance. -/
theorem radial_p {dd nd nn md mn k u : ℝ} (hdd : 0 < dd) (hnn : 0 ≤ nn) (hu : md + u * nd = 0)
    (h : k + 2 * u * (mn + u * nn) ≤ 0) : radial dd nd nn md mn k u ≤ 0 := by
  have e : radial dd nd nn md mn k u = dd * (k + 2 * u * (mn + u * nn) - u * u * nn) := by
    unfold radial
    rw [hu]
    ring
  rw [e]
  have := mul_nonneg (mul_self_nonneg u) hnn
  exact mul_nonpos_of_nonneg_of_nonpos hdd.le (by linarith)

theorem sq_bounds {x R D : ℝ} (h : R * R = D) (hR : 0 ≤ R) : x ^ 2 ≤ D ↔ -R ≤ x ∧ x ≤ R := by
  rw [← h, ← sq]
  exact ⟨fun hx => abs_le.1 (abs_le_of_sq_le_sq hx hR), fun hx => sq_le_sq' hx.1 hx.2⟩

theorem cylT_sound {md nd dd nn mn k t : ℝ} (hdd : 0 < dd) (hnn : 0 ≤ nn) (h : epsilon ≤ dd * nn - nd * nd)
    (ht : cylT md nd dd nn mn k = some t) :
    0 ≤ t ∧ t ≤ 1 ∧ 0 ≤ md + t * nd ∧ md + t * nd ≤ dd ∧ radial dd nd nn md mn k t ≤ 0 := by
  unfold cylT at ht
  rw [if_neg (not_lt.2 (h.trans (le_abs_self _)))] at ht
  obtain ⟨a, ha'⟩ : ∃ a, a = dd * nn - nd * nd := ⟨_, rfl⟩
  obtain ⟨b, hb⟩ : ∃ b, b = dd * mn - nd * md := ⟨_, rfl⟩
  obtain ⟨D, hD⟩ : ∃ D, D = b * b - a * (dd * k - md * md) := ⟨_, rfl⟩
  rw [← ha', ← hb, ← hD] at ht
  rw [← ha'] at h
  have ha : 0 < a := lt_of_lt_of_le epsilon_pos h
  have hr := radial_sq ha' hb hD ha
  simp only [] at ht
  split_ifs at ht with h1 h2 h3 h4 h5 h6 h7 h8 h9 h10
  all_goals
    push Not at h4
    obtain ⟨t0, t1⟩ := h4
    obtain rfl := Option.some.inj ht
  · have hnd := not_le.1 h6
    have hmd : md < 0 := by linarith [mul_nonneg t0 hnd.le]
    have hge : 0 ≤ md + nd := by
      by_contra hz
      exact h1 ⟨hmd, not_le.1 hz⟩
    have hat : md + -md / nd * nd = 0 := by
      rw [div_mul_cancel₀ _ hnd.ne', add_neg_cancel]
    exact ⟨div_nonneg (by linarith) hnd.le, (div_le_one hnd).2 (by linarith), hat.ge,
      hat.le.trans hdd.le, radial_p hdd hnn hat h7⟩
  · have hnd := not_le.1 h9
    have hmd : dd < md := by linarith [mul_nonneg t0 (neg_nonneg.2 hnd.le)]
    have hge : md + nd ≤ dd := by
      by_contra hz
      exact h2 ⟨hmd, not_le.1 hz⟩
    have hat : md + (dd - md) / nd * nd = dd := by
      rw [div_mul_cancel₀ _ hnd.ne]
      ring
    exact ⟨div_nonneg_of_nonpos (by linarith) hnd.le, (div_le_one_of_neg hnd).2 (by linarith),
      hdd.le.trans hat.ge, hat.le, (radial_q hdd hat).2 h10⟩
  · refine ⟨t0, t1, not_lt.1 h5, not_lt.1 h8, (hr _).2 ?_⟩
    have hRR := Real.mul_self_sqrt (not_lt.1 h3)
    have hR0 := Real.sqrt_nonneg D
    rw [sq_bounds hRR hR0, mul_div_cancel₀ _ ha.ne']
    constructor <;> linarith

/-- Conditions on the parameter for being in the cylinder. -/
def InCyl (md nd dd nn mn k t : ℝ) : Prop :=
  0 ≤ md + t * nd ∧ md + t * nd ≤ dd ∧ radial dd nd nn md mn k t ≤ 0

theorem cylT_answers {md nd dd nn mn k : ℝ} (hdd : 0 < dd) (h : epsilon ≤ dd * nn - nd * nd)
    (hout : ¬ radial dd nd nn md mn k 0 ≤ 0)
    (hent : ∀ t, 0 ≤ t → t ≤ 1 → radial dd nd nn md mn k t ≤ 0 →
      (∀ s, 0 ≤ s → s < t → ¬ radial dd nd nn md mn k s ≤ 0) → 0 ≤ md ∨ 0 ≤ md + t * nd) :
    match cylT md nd dd nn mn k with
    | some t => 0 ≤ t ∧ t ≤ 1 ∧ InCyl md nd dd nn mn k t ∧ ∀ s, 0 ≤ s → s < t → ¬ InCyl md nd dd nn mn k s
    | none => ∀ s, 0 ≤ s → s ≤ 1 → ¬ InCyl md nd dd nn mn k s := by
  unfold cylT
  rw [if_neg (not_lt.2 (h.trans (le_abs_self _)))]
  obtain ⟨a, ha'⟩ : ∃ a, a = dd * nn - nd * nd := ⟨_, rfl⟩
  obtain ⟨b, hb⟩ : ∃ b, b = dd * mn - nd * md := ⟨_, rfl⟩
  obtain ⟨D, hD⟩ : ∃ D, D = b * b - a * (dd * k - md * md) := ⟨_, rfl⟩
  rw [← ha', ← hb, ← hD]
  rw [← ha'] at h
  have ha : 0 < a := lt_of_lt_of_le epsilon_pos h
  have hr := radial_sq ha' hb hD ha
  by_cases h1 : md < 0 ∧ md + nd < 0
  · rw [if_pos h1]
    intro s s0 s1 hm'
    exact absurd hm'.1 (not_le.2 (mix_lt h1.1 h1.2 s0 s1))
  rw [if_neg h1]
  by_cases h2 : md > dd ∧ md + nd > dd
  · rw [if_pos h2]
    intro s s0 s1 hm'
    exact absurd hm'.2.1 (not_le.2 (mix_gt h2.1 h2.2 s0 s1))
  rw [if_neg h2]
  by_cases h3 : D < 0
  · rw [if_pos h3]
    intro s s0 s1 hm'
    have := (hr s).1 hm'.2.2
    linarith [sq_nonneg (a * s + b)]
  rw [if_neg h3]
  have hRR := Real.mul_self_sqrt (not_lt.1 h3)
  have hR0 := Real.sqrt_nonneg D
  obtain ⟨R, hR⟩ : ∃ R, R = Real.sqrt D := ⟨_, rfl⟩
  rw [← hR] at hRR hR0 ⊢
  obtain ⟨t, ht⟩ : ∃ t, t = (-b - R) / a := ⟨_, rfl⟩
  rw [← ht]
  have hat : a * t + b = -R := by
    rw [ht, mul_div_cancel₀ _ ha.ne']
    ring
  have hr' : ∀ s, radial dd nd nn md mn k s ≤ 0 ↔ -R ≤ a * s + b ∧ a * s + b ≤ R := fun s =>
    (hr s).trans (sq_bounds hRR hR0)
  have hbefore : ∀ s, s < t → ¬ radial dd nd nn md mn k s ≤ 0 := by
    intro s hs hle
    have h5 := ((hr' s).1 hle).1
    have : a * s < a * t := mul_lt_mul_of_pos_left hs ha
    linarith
  have htt : radial dd nd nn md mn k t ≤ 0 := (hr' t).2 ⟨by linarith, by linarith⟩
  clear hr hD ha' hb hRR
  simp only []
  by_cases h4 : t < 0 ∨ t > 1
  · rw [if_pos h4]
    intro s s0 s1 hm'
    rcases h4 with h4 | h4
    · have hbR : -R < b := by
        have : a * t < 0 := mul_neg_of_pos_of_neg ha h4
        linarith
      have hbR' : R < b := by
        by_contra hz
        apply hout
        rw [hr', mul_zero, zero_add]
        exact ⟨hbR.le, not_lt.1 hz⟩
      have h5 := ((hr' s).1 hm'.2.2).2
      linarith [mul_nonneg ha.le s0]
    · exact hbefore s (lt_of_le_of_lt s1 h4) hm'.2.2
  rw [if_neg h4]
  push Not at h4
  obtain ⟨t0, t1⟩ := h4
  have hge : ∀ s, InCyl md nd dd nn mn k s → t ≤ s := by
    intro s hs
    by_contra hz
    exact hbefore s (not_le.1 hz) hs.2.2
  by_cases h5 : md + t * nd < 0
  · rw [if_pos h5]
    by_cases h6 : nd ≤ 0
    · rw [if_pos h6]
      intro s s0 s1 hm'
      have := mul_le_mul_of_nonpos_right (hge s hm') h6
      linarith [hm'.1]
    · exfalso
      have hnd := not_le.1 h6
      rcases hent t t0 t1 htt (fun s _ hs => hbefore s hs) with hf | hf
      · linarith [mul_nonneg t0 hnd.le]
      · linarith
  rw [if_neg h5]
  by_cases h8 : md + t * nd > dd
  · rw [if_pos h8]
    by_cases h9 : nd ≥ 0
    · rw [if_pos h9]
      intro s s0 s1 hm'
      have := mul_le_mul_of_nonneg_right (hge s hm') h9
      linarith [hm'.2.1]
    rw [if_neg h9]
    have hnd := not_le.1 h9
    have hmd : dd < md := by linarith [mul_nonneg t0 (neg_nonneg.2 hnd.le)]
    have hge' : md + nd ≤ dd := by
      by_contra hz
      exact h2 ⟨hmd, not_le.1 hz⟩
    have hat' : md + (dd - md) / nd * nd = dd := by
      rw [div_mul_cancel₀ _ hnd.ne]
      ring
    have hu0 : 0 ≤ (dd - md) / nd := div_nonneg_of_nonpos (by linarith) hnd.le
    have hu1 : (dd - md) / nd ≤ 1 := (div_le_one_of_neg hnd).2 (by linarith)
    have htu : t ≤ (dd - md) / nd := by
      rw [le_div_iff_of_neg hnd]
      linarith
    have hus : ∀ s, InCyl md nd dd nn mn k s → (dd - md) / nd ≤ s := by
      intro s hs
      rw [div_le_iff_of_neg hnd]
      linarith [hs.2.1]
    obtain ⟨u, hu⟩ : ∃ u, u = (dd - md) / nd := ⟨_, rfl⟩
    rw [← hu] at hat' hu0 hu1 htu hus ⊢
    by_cases h10 : k + dd - 2 * md + u * (2 * (mn - nd) + u * nn) ≤ 0
    · rw [if_pos h10]
      refine ⟨hu0, hu1, ⟨hdd.le.trans hat'.ge, hat'.le, (radial_q hdd hat').2 h10⟩, ?_⟩
      intro s s0 s1 hm'
      exact absurd (hus s hm') (not_le.2 s1)
    · rw [if_neg h10]
      intro s s0 s1 hm'
      apply h10
      rw [← radial_q hdd hat', hr']
      have e1 := mul_le_mul_of_nonneg_left htu ha.le
      have e2 := mul_le_mul_of_nonneg_left (hus s hm') ha.le
      have e3 := ((hr' s).1 hm'.2.2).2
      constructor <;> linarith
  · rw [if_neg h8]
    refine ⟨t0, t1, ⟨not_lt.1 h5, not_lt.1 h8, htt⟩, ?_⟩
    intro s s0 s1 hm'
    exact hbefore s s1 hm'.2.2

/-- What is found is in both, if the area is not small. -/
theorem cylinder_sound {sa sb p q x : V3 ℝ} {r : ℝ} (hpq : p ≠ q)
    (h : epsilon ≤ normSq (q - p) * normSq (sb - sa) - inner (q - p) (sb - sa) ^ 2)
    (hx : cylinder sa sb p q r = some x) : x ∈ segment ℝ sa sb ∧ x ∈ Cylinder p q r := by
  rw [area_eq, ← sub_eq, ← sub_eq] at h
  rw [cylinder_eq] at hx
  obtain ⟨t, ht, rfl⟩ := Option.map_eq_some_iff.1 hx
  have hnn : 0 ≤ dot (sub sb sa) (sub sb sa) := by
    unfold dot
    exact add_nonneg (add_nonneg (mul_self_nonneg _) (mul_self_nonneg _)) (mul_self_nonneg _)
  obtain ⟨t0, t1, g⟩ := cylT_sound (dot_self_pos hpq) hnn h ht
  refine ⟨mem_segment.2 ⟨t, t0, t1, rfl⟩, ?_⟩
  rw [pointOnLine_eq, (cylinder_numbers (sa := sa) (sb := sb) (r := r) hpq t).1]
  exact g

/-- A segment starting outside the tube and entering it not beyond the end at `p`. -/
theorem cylinder_answers {sa sb p q : V3 ℝ} {r : ℝ} (hpq : p ≠ q)
    (h : epsilon ≤ normSq (q - p) * normSq (sb - sa) - inner (q - p) (sb - sa) ^ 2)
    (hout : sa ∉ Tube p q r)
    (hent : ∀ y, First sa sb (Tube p q r) y → 0 ≤ inner (sa - p) (q - p) ∨ 0 ≤ inner (y - p) (q - p)) :
    Answers sa sb (Cylinder p q r) (cylinder sa sb p q r) := by
  rw [area_eq, ← sub_eq, ← sub_eq] at h
  have hnum := fun t => (cylinder_numbers (sa := sa) (sb := sb) (r := r) hpq t).1
  have htub := fun t => (cylinder_numbers (sa := sa) (sb := sb) (r := r) hpq t).2.1
  have hax := fun t => (cylinder_numbers (sa := sa) (sb := sb) (r := r) hpq t).2.2
  have hsb : sb = sa + (1 : ℝ) • (sb - sa) := by simp
  have hAns : ∀ o, Answers sa (sa + (1 : ℝ) • (sb - sa)) (Cylinder p q r) o →
      Answers sa sb (Cylinder p q r) o := fun o ho => by rw [hsb]; exact ho
  have hkey := cylT_answers (dot_self_pos hpq) h
    (md := dot (sub sa p) (sub q p)) (mn := dot (sub sa p) (sub sb sa))
    (k := dot (sub sa p) (sub sa p) - r * r)
    (fun hle => hout (by
      have := (htub 0).2 hle
      rw [zero_smul, add_zero] at this
      exact this))
    (fun t t0 t1 ht hs => by
      have hF : First sa sb (Tube p q r) (sa + t • (sb - sa)) := by
        have := first_of (u := sb - sa) t0 t1 ((htub t).2 ht) (fun s s0 s1 hm => hs s s0 s1 ((htub s).1 hm))
        rwa [← hsb] at this
      have := hent _ hF
      rw [hax] at this
      have h0 := hax 0
      rw [zero_smul, add_zero, zero_mul, add_zero] at h0
      rw [h0] at this
      exact this)
  rw [cylinder_eq]
  apply hAns
  revert hkey
  cases cylT (dot (sub sa p) (sub q p)) (dot (sub sb sa) (sub q p))
      (dot (sub q p) (sub q p)) (dot (sub sb sa) (sub sb sa)) (dot (sub sa p) (sub sb sa))
      (dot (sub sa p) (sub sa p) - r * r) with
  | none =>
    intro hkey
    exact disjoint_of zero_le_one (fun s s0 s1 hm => hkey s s0 s1 ((hnum s).1 hm))
  | some t =>
    rintro ⟨t0, t1, hc, hf⟩
    show First _ _ _ (pointOnLine sa sb t)
    rw [pointOnLine_eq]
    exact first_of t0 t1 ((hnum t).2 hc) (fun s s0 s1 hm => hf s s0 s1 ((hnum s).1 hm))

/-- A segment that starts inside the tube and is not parallel to the axis is always missed. -/
theorem cylinder_inside {sa sb p q : V3 ℝ} {r : ℝ}
    (h : epsilon ≤ normSq (q - p) * normSq (sb - sa) - inner (q - p) (sb - sa) ^ 2)
    (hin : dot (sub q p) (sub q p) * (dot (sub sa p) (sub sa p) - r * r) -
      dot (sub sa p) (sub q p) * dot (sub sa p) (sub q p) < 0) :
    cylinder sa sb p q r = none := by
  rw [area_eq, ← sub_eq, ← sub_eq] at h
  have ha := lt_of_lt_of_le (epsilon_pos) h
  unfold cylinder
  simp only []
  rw [if_neg (not_lt.2 (h.trans (le_abs_self _)))]
  set a := dot (sub q p) (sub q p) * dot (sub sb sa) (sub sb sa) -
    dot (sub sb sa) (sub q p) * dot (sub sb sa) (sub q p) with ha'
  set b := dot (sub q p) (sub q p) * dot (sub sa p) (sub sb sa) -
    dot (sub sb sa) (sub q p) * dot (sub sa p) (sub q p) with hb
  set c := dot (sub q p) (sub q p) * (dot (sub sa p) (sub sa p) - r * r) -
      dot (sub sa p) (sub q p) * dot (sub sa p) (sub q p) with hc
  have hlt : (-b - Real.sqrt (b * b - a * c)) / a < 0 := by
    apply div_neg_of_neg_of_pos _ ha
    have h1 : 0 < -(a * c) := by
      rw [← mul_neg]
      exact mul_pos ha (neg_pos.2 hin)
    have h2 : |b| < Real.sqrt (b * b - a * c) := by
      rw [← Real.sqrt_mul_self_eq_abs]
      exact Real.sqrt_lt_sqrt (mul_self_nonneg b) (by linarith)
    have h3 := neg_abs_le b
    linarith
  rw [if_pos (Or.inl hlt)]
  split_ifs <;> rfl

end Gunns.Geom
