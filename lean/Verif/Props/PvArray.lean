import Mathlib.Algebra.BigOperators.Group.List.Basic
import Verif.Elect.PvArray
import Verif.Props.PvString

/-!
# C78: the solar array as a link

The array is the sum of its strings at the voltage of the strongest, and gives the network one of the two lines of its curve,
the open circuit side or the short circuit side.  The specification: `PvLines` of C77, with the points of the array.
-/

namespace Gunns.Props

open Gunns Gunns.Pv

section Field

variable {K : Type} [Field K] [LinearOrder K] [IsStrictOrderedRing K]

/-- The points of the curve of an array are in order. -/
structure ProperArray (a : ArrayCurve K) : Prop where
  v0 : 2 * dblEps ≤ a.cornerV
  v1 : dblEps < a.voc - a.cornerV
  i0 : 0 < a.cornerI
  i1 : dblEps < a.isc - a.cornerI

/-! ## From the strings -/

omit [IsStrictOrderedRing K] in
private theorem scan_spec (strings : List (StringCurve K)) (x0 x1 x2 x3 : K) :
    let r := strings.foldl (fun (a : K × K × K × K) s =>
      let b := (a.1 + s.isc, max a.2.1 s.voc)
      if s.mpp.power > a.2.2.1 then (b.1, b.2, s.mpp.power, s.mpp.voltage) else (b.1, b.2, a.2.2.1, a.2.2.2)) (x0, x1, x2, x3)
    r.1 = x0 + (strings.map StringCurve.isc).sum ∧ (x1 ≤ r.2.1 ∧ (∀ s ∈ strings, s.voc ≤ r.2.1) ∧ (r.2.1 = x1 ∨ ∃ s ∈ strings, r.2.1 = s.voc)) ∧
      x2 ≤ r.2.2.1 ∧ (∀ s ∈ strings, s.mpp.power ≤ r.2.2.1) ∧
      ((r.2.2.1 = x2 ∧ r.2.2.2 = x3) ∨ ∃ s ∈ strings, x2 < s.mpp.power ∧ r.2.2.1 = s.mpp.power ∧ r.2.2.2 = s.mpp.voltage) := by
  induction strings generalizing x0 x1 x2 x3 with
  | nil => simp
  | cons t ts ih =>
    simp only [List.foldl_cons]
    by_cases h : t.mpp.power > x2
    · rw [if_pos h]
      obtain ⟨e1, ⟨e2, e3, e4⟩, e5, e6, e7⟩ := ih (x0 + t.isc) (max x1 t.voc) t.mpp.power t.mpp.voltage
      refine ⟨?_, ⟨(le_max_left _ _).trans e2, ?_, ?_⟩, h.le.trans e5, ?_, ?_⟩
      · rw [e1, List.map_cons, List.sum_cons, add_assoc]
      · intro s hs
        rcases List.mem_cons.1 hs with rfl | hs
        · exact (le_max_right _ _).trans e2
        · exact e3 s hs
      · rcases e4 with e4 | ⟨s, hs, e4⟩
        · rcases max_choice x1 t.voc with c | c
          · exact Or.inl (e4.trans c)
          · exact Or.inr ⟨t, List.mem_cons_self, e4.trans c⟩
        · exact Or.inr ⟨s, List.mem_cons_of_mem _ hs, e4⟩
      · intro s hs
        rcases List.mem_cons.1 hs with rfl | hs
        · exact e5
        · exact e6 s hs
      · rcases e7 with ⟨a, b⟩ | ⟨s, hs, a, b, c⟩
        · exact Or.inr ⟨t, List.mem_cons_self, h, a, b⟩
        · exact Or.inr ⟨s, List.mem_cons_of_mem _ hs, lt_trans h a, b, c⟩
    · rw [if_neg h]
      obtain ⟨e1, ⟨e2, e3, e4⟩, e5, e6, e7⟩ := ih (x0 + t.isc) (max x1 t.voc) x2 x3
      refine ⟨?_, ⟨(le_max_left _ _).trans e2, ?_, ?_⟩, e5, ?_, ?_⟩
      · rw [e1, List.map_cons, List.sum_cons, add_assoc]
      · intro s hs
        rcases List.mem_cons.1 hs with rfl | hs
        · exact (le_max_right _ _).trans e2
        · exact e3 s hs
      · rcases e4 with e4 | ⟨s, hs, e4⟩
        · rcases max_choice x1 t.voc with c | c
          · exact Or.inl (e4.trans c)
          · exact Or.inr ⟨t, List.mem_cons_self, e4.trans c⟩
        · exact Or.inr ⟨s, List.mem_cons_of_mem _ hs, e4⟩
      · intro s hs
        rcases List.mem_cons.1 hs with rfl | hs
        · exact (not_lt.1 h).trans e5
        · exact e6 s hs
      · rcases e7 with ⟨a, b⟩ | ⟨s, hs, a, b, c⟩
        · exact Or.inl ⟨a, b⟩
        · exact Or.inr ⟨s, List.mem_cons_of_mem _ hs, a, b, c⟩

omit [LinearOrder K] [IsStrictOrderedRing K] in
private theorem foldl_add_sum (strings : List (StringCurve K)) (v x : K) :
    strings.foldl (fun a s => a + s.predict v) x = x + (strings.map fun s => s.predict v).sum := by
  induction strings generalizing x with
  | nil => simp
  | cons t ts ih => rw [List.foldl_cons, ih, List.map_cons, List.sum_cons, add_assoc]

omit [IsStrictOrderedRing K] in
/-- **C78**: the points of the curve of the array: the sum of the short circuit currents, the greatest open circuit voltage,
and the corner, at the voltage of a string of the greatest power, with the current of all strings there. -/
theorem c78_points (strings : List (StringCurve K)) :
    (updateArray strings).isc = (strings.map StringCurve.isc).sum ∧
      0 ≤ (updateArray strings).voc ∧ (∀ s ∈ strings, s.voc ≤ (updateArray strings).voc) ∧
      ((updateArray strings).voc = 0 ∨ ∃ s ∈ strings, (updateArray strings).voc = s.voc) ∧
      (((∀ s ∈ strings, s.mpp.power ≤ 0) ∧ (updateArray strings).cornerV = 0) ∨
        ∃ s ∈ strings, 0 < s.mpp.power ∧ (∀ t ∈ strings, t.mpp.power ≤ s.mpp.power) ∧ (updateArray strings).cornerV = s.mpp.voltage) ∧
      (updateArray strings).cornerI = (strings.map fun s => s.predict (updateArray strings).cornerV).sum := by
  obtain ⟨e1, ⟨e2, e3, e4⟩, e5, e6, e7⟩ := scan_spec strings 0 0 0 0
  refine ⟨?_, e2, e3, e4, ?_, ?_⟩
  · rw [← zero_add (strings.map _).sum]
    exact e1
  · rcases e7 with ⟨a, b⟩ | ⟨s, hs, a, b, c⟩
    · refine Or.inl ⟨fun s hs => ?_, b⟩
      rw [← a]
      exact e6 s hs
    · refine Or.inr ⟨s, hs, a, fun t ht => ?_, c⟩
      rw [← b]
      exact e6 t ht
  · rw [← zero_add (strings.map _).sum]
    exact foldl_add_sum strings _ 0

/-- **C78**: an array of equal strings is one string with as many times the current. -/
theorem c78_equal_strings (s : PvString K) (h : ProperString s) (n : ℕ) (hn : 0 < n) :
    (updateArray (List.replicate n s.curve)).isc = n * s.isc ∧ (updateArray (List.replicate n s.curve)).voc = s.voc ∧
      (updateArray (List.replicate n s.curve)).cornerV = s.mpp.voltage ∧
      (updateArray (List.replicate n s.curve)).cornerI = n * s.mpp.current := by
  have vm : 0 < s.mpp.voltage := lt_trans dblEps_pos h.v0
  have hp : 0 < s.mpp.power := by
    rw [h.p]
    exact mul_pos vm h.i0
  have mem : ∀ t ∈ List.replicate n s.curve, t = s.curve := fun t ht => List.eq_of_mem_replicate ht
  have hin : s.curve ∈ List.replicate n s.curve := List.mem_replicate.2 ⟨hn.ne', rfl⟩
  obtain ⟨e1, e2, e3, e4, e5, e6⟩ := c78_points (List.replicate n s.curve)
  have cv : (updateArray (List.replicate n s.curve)).cornerV = s.mpp.voltage := by
    rcases e5 with ⟨a, -⟩ | ⟨t, ht, -, -, c⟩
    · exact absurd (a _ hin) (not_le.2 hp)
    · rw [c, mem t ht]
      rfl
  refine ⟨?_, ?_, cv, ?_⟩
  · rw [e1, List.map_replicate, List.sum_replicate, nsmul_eq_mul]
    rfl
  · rcases e4 with a | ⟨t, ht, a⟩
    · have := e3 _ hin
      rw [a] at this
      have : s.voc ≤ 0 := this
      linarith [h.v1]
    · rw [a, mem t ht]
      rfl
  · rw [e6, cv, List.map_replicate, List.sum_replicate, nsmul_eq_mul]
    congr 1
    have l := (c77_predict_lines s h s.mpp.voltage h.v0.le h.v1.le).1 le_rfl
    rw [sub_self, mul_zero, zero_add] at l
    exact mul_right_cancel₀ vm.ne' l

/-! ## The maximum power point -/

private theorem mpp_facts {isc vc ic : K} (h0 : 2 * dblEps ≤ vc) (h2 : 0 < ic) (h3 : dblEps < isc - ic) :
    let m := arrayMpp isc vc ic
    m.voltage = min (1 / 2 * isc * vc / (isc - ic)) vc ∧ dblEps ≤ m.voltage ∧ m.voltage ≤ vc ∧
      m.current * vc = isc * (vc - m.voltage) + ic * m.voltage ∧ m.power = m.voltage * m.current ∧
      m.conductance * m.voltage = m.current ∧ 2 * (isc - ic) * m.voltage ≤ isc * vc ∧
      (m.voltage = vc ∨ 2 * (isc - ic) * m.voltage = isc * vc) := by
  have ep := dblEps_pos (K := K)
  have vp : 0 < vc := by linarith
  have dp : 0 < isc - ic := ep.trans h3
  obtain ⟨v, hv⟩ : ∃ v, v = min (1 / 2 * isc * vc / (isc - ic)) vc := ⟨_, rfl⟩
  have hge : dblEps ≤ v := by
    rw [hv]
    apply le_min
    · rw [le_div_iff₀ dp]
      have : dblEps * (isc - ic) ≤ 1 / 2 * vc * (isc - ic) := mul_le_mul_of_nonneg_right (by linarith) dp.le
      have : 1 / 2 * vc * ic ≥ 0 := by positivity
      linarith
    · linarith
  have hle : v ≤ vc := by
    rw [hv]
    exact min_le_right _ _
  have v0 : 0 < v := ep.trans_le hge
  have e : arrayMpp isc vc ic = ⟨(isc - (isc - ic) * v / vc) * v / v / v, (isc - (isc - ic) * v / vc) * v / v,
      (isc - (isc - ic) * v / vc) * v, v⟩ := by
    unfold arrayMpp
    simp only
    rw [if_pos ⟨h3, by linarith⟩, ← hv, max_eq_right hge]
  simp only [e, mul_div_cancel_right₀ _ v0.ne']
  refine ⟨hv, hge, hle, ?_, mul_comm _ _, div_mul_cancel₀ _ v0.ne', ?_, ?_⟩
  · rw [sub_mul, div_mul_cancel₀ _ vp.ne']
    ring
  · have := min_le_left (1 / 2 * isc * vc / (isc - ic)) vc
    rw [← hv, le_div_iff₀ dp] at this
    linarith
  · rcases min_choice (1 / 2 * isc * vc / (isc - ic)) vc with c | c
    · right
      rw [← hv, eq_div_iff dp.ne'] at c
      linarith
    · left
      rw [hv, c]

/-- **C78**: the maximum power point of the array is on its curve, and no point of the short circuit side has more power. -/
theorem c78_mpp (strings : List (StringCurve K)) (a : ArrayCurve K) (ha : a = updateArray strings) (h : ProperArray a) :
    PvLines a.isc a.cornerV a.cornerI a.voc a.mpp.voltage a.mpp.current ∧ a.mpp.power = a.mpp.voltage * a.mpp.current ∧
      a.mpp.conductance * a.mpp.voltage = a.mpp.current ∧ 0 < a.mpp.voltage ∧ a.mpp.voltage ≤ a.cornerV ∧
      (∀ v i, v ≤ a.cornerV → PvLines a.isc a.cornerV a.cornerI a.voc v i → v * i ≤ a.mpp.power) := by
  have em : a.mpp = arrayMpp a.isc a.cornerV a.cornerI := by
    rw [ha]
    rfl
  obtain ⟨f0, f1, f2, f3, f4, f5, f6, f7⟩ := mpp_facts h.v0 h.i0 h.i1
  rw [← em] at f0 f1 f2 f3 f4 f5 f6 f7
  have ep := dblEps_pos (K := K)
  have vp : 0 < a.cornerV := by linarith [h.v0]
  have dp : 0 < a.isc - a.cornerI := ep.trans h.i1
  refine ⟨⟨fun _ => f3, fun c => ?_⟩, f4, f5, ep.trans_le f1, f2, ?_⟩
  · have e : a.mpp.voltage = a.cornerV := le_antisymm f2 c
    rw [e] at f3 ⊢
    rw [sub_self, mul_zero, zero_add] at f3
    rw [mul_right_cancel₀ vp.ne' f3]
  · intro v i hv hl
    have l := hl.1 hv
    rw [f4]
    have : v * i * a.cornerV ≤ a.mpp.voltage * a.mpp.current * a.cornerV := by
      have e1 : v * i * a.cornerV = v * (i * a.cornerV) := by ring
      have e2 : a.mpp.voltage * a.mpp.current * a.cornerV = a.mpp.voltage * (a.mpp.current * a.cornerV) := by ring
      rw [e1, e2, l, f3]
      rcases f7 with c | c
      · rw [c] at f6 ⊢
        have t : 0 ≤ a.cornerI * a.cornerV - (a.isc - a.cornerI) * v := by
          nlinarith [mul_le_mul_of_nonneg_left hv dp.le]
        nlinarith [mul_nonneg (sub_nonneg.2 hv) t]
      · nlinarith [mul_nonneg dp.le (sq_nonneg (v - a.mpp.voltage))]
    exact le_of_mul_le_mul_right this vp

/-- **C78**: where the corner is at half of the open circuit voltage or more, no point of the curve has more power. -/
theorem c78_mpp_global (strings : List (StringCurve K)) (a : ArrayCurve K) (ha : a = updateArray strings) (h : ProperArray a)
    (h2 : a.voc ≤ 2 * a.cornerV) (v i : K) (hl : PvLines a.isc a.cornerV a.cornerI a.voc v i) : v * i ≤ a.mpp.power := by
  obtain ⟨-, -, -, -, -, m6⟩ := c78_mpp strings a ha h
  have ep := dblEps_pos (K := K)
  have vp : 0 < a.cornerV := by linarith [h.v0]
  have hd : 0 < a.voc - a.cornerV := ep.trans h.v1
  rcases le_total v a.cornerV with c | c
  · exact m6 v i c hl
  · have corner := m6 a.cornerV a.cornerI le_rfl ⟨fun _ => by ring, fun _ => rfl⟩
    refine le_trans ?_ corner
    have l := hl.2 c
    have : v * i * (a.voc - a.cornerV) ≤ a.cornerV * a.cornerI * (a.voc - a.cornerV) := by
      have e1 : v * i * (a.voc - a.cornerV) = v * (i * (a.voc - a.cornerV)) := by ring
      rw [e1, l]
      nlinarith [mul_nonneg (mul_nonneg h.i0.le (sub_nonneg.2 c)) (show 0 ≤ a.cornerV + v - a.voc by linarith)]
    exact le_of_mul_le_mul_right this hd

/-- **C78**: the failure.  Where the corner is below half of the open circuit voltage (and the array is at its best at the corner
on the short circuit side), there are points of more power on the open circuit side. -/
theorem c78_mpp_not_global (strings : List (StringCurve K)) (a : ArrayCurve K) (ha : a = updateArray strings) (h : ProperArray a)
    (h2 : 2 * a.cornerV < a.voc) (h3 : a.isc ≤ 2 * a.cornerI) :
    ∃ v i, a.cornerV < v ∧ v < a.voc ∧ PvLines a.isc a.cornerV a.cornerI a.voc v i ∧ a.mpp.power < v * i := by
  have em : a.mpp = arrayMpp a.isc a.cornerV a.cornerI := by
    rw [ha]
    rfl
  obtain ⟨f0, f1, f2, f3, f4, f5, f6, f7⟩ := mpp_facts h.v0 h.i0 h.i1
  rw [← em] at f0 f1 f2 f3 f4 f5 f6 f7
  have ep := dblEps_pos (K := K)
  have vp : 0 < a.cornerV := by linarith [h.v0]
  have dp : 0 < a.isc - a.cornerI := ep.trans h.i1
  have hd : 0 < a.voc - a.cornerV := ep.trans h.v1
  have ev : a.mpp.voltage = a.cornerV := by
    rcases f7 with c | c
    · exact c
    · apply le_antisymm f2
      have : 2 * (a.isc - a.cornerI) * a.cornerV ≤ 2 * (a.isc - a.cornerI) * a.mpp.voltage := by
        rw [c]
        exact mul_le_mul_of_nonneg_right (by linarith) vp.le
      exact le_of_mul_le_mul_left this (by linarith)
  have ei : a.mpp.current = a.cornerI := by
    rw [ev, sub_self, mul_zero, zero_add] at f3
    exact mul_right_cancel₀ vp.ne' f3
  refine ⟨a.voc / 2, a.cornerI * (a.voc / 2) / (a.voc - a.cornerV), by linarith, by linarith, ⟨fun c => ?_, fun _ => ?_⟩, ?_⟩
  · linarith
  · rw [div_mul_cancel₀ _ hd.ne']
    ring
  · rw [f4, ev, ei, mul_div_assoc', lt_div_iff₀ hd]
    have : 0 < a.cornerI * ((a.voc - 2 * a.cornerV) * (a.voc - 2 * a.cornerV)) :=
      mul_pos h.i0 (mul_pos (by linarith) (by linarith))
    linarith

/-! ## What the network gets -/

/-- **C78**: on the open circuit side the network gets the line of the open circuit side. -/
theorem c78_open_flux (a : ArrayCurve K) (h : ProperArray a) (v : K) (hv : a.cornerV ≤ v) :
    PvLines a.isc a.cornerV a.cornerI a.voc v (a.flux true v) := by
  have ep := dblEps_pos (K := K)
  have vp : 0 < a.cornerV := by linarith [h.v0]
  have hd : 0 < a.voc - a.cornerV := ep.trans h.v1
  have e : a.flux true v * (a.voc - a.cornerV) = a.cornerI * (a.voc - v) := by
    unfold ArrayCurve.flux ArrayCurve.source ArrayCurve.admittance
    simp only [if_true]
    rw [if_pos h.v1]
    have : a.cornerI / (a.voc - a.cornerV) * (a.voc - a.cornerV) = a.cornerI := div_mul_cancel₀ _ hd.ne'
    linear_combination (a.voc - v) * this
  refine ⟨fun c => ?_, fun _ => e⟩
  have ev : v = a.cornerV := le_antisymm c hv
  rw [ev] at e ⊢
  rw [mul_right_cancel₀ hd.ne' e]
  ring

/-- **C78**: the failure.  On the short circuit side the network gets the line of the short circuit side without the current of
the corner: the source is the admittance times the voltage of the corner and not the short circuit current. -/
theorem c78_short_flux (a : ArrayCurve K) (h : ProperArray a) (v : K) (hv : v ≤ a.cornerV) :
    PvLines a.isc a.cornerV a.cornerI a.voc v (a.flux false v + a.cornerI) := by
  have ep := dblEps_pos (K := K)
  have vp : 0 < a.cornerV := by linarith [h.v0]
  have e : a.flux false v * a.cornerV = (a.isc - a.cornerI) * (a.cornerV - v) := by
    unfold ArrayCurve.flux ArrayCurve.source ArrayCurve.admittance
    simp only [Bool.false_eq_true, if_false]
    rw [if_pos (show a.cornerV > dblEps by linarith [h.v0])]
    have : (a.isc - a.cornerI) / a.cornerV * a.cornerV = a.isc - a.cornerI := div_mul_cancel₀ _ vp.ne'
    linear_combination (a.cornerV - v) * this
  refine ⟨fun c => by linear_combination e, fun c => ?_⟩
  have ev : v = a.cornerV := le_antisymm hv c
  rw [ev] at e ⊢
  rw [sub_self, mul_zero] at e
  rw [(mul_eq_zero.1 e).resolve_right vp.ne', zero_add]

omit [Field K] [IsStrictOrderedRing K] in
/-- **C78**: the array confirms a solution exactly when the voltage is on the side of the corner that it was solved for, and
else changes the side. -/
theorem c78_confirm (a : ArrayCurve K) (openSide : Bool) (v : K) :
    ((a.confirm true openSide v).1 = true ↔ (openSide = true ↔ a.cornerV ≤ v)) ∧
      (a.confirm true openSide v).2 = decide (a.cornerV ≤ v) ∧ a.confirm false openSide v = (true, openSide) := by
  unfold ArrayCurve.confirm
  by_cases h : a.cornerV ≤ v <;> cases openSide <;> simp [h, not_lt.2, not_le.1]

/-- The voltage of a node that has only the array on the given side, a conductance `g` to ground and a source `j`. -/
def NodeVoltage (a : ArrayCurve K) (openSide : Bool) (g j v : K) : Prop := a.flux openSide v + j = g * v

private theorem short_side (a : ArrayCurve K) (h : ProperArray a) (g j v : K) (hg : 0 ≤ g) (hn : NodeVoltage a false g j v) :
    a.cornerV ≤ v ↔ g * a.cornerV ≤ j := by
  have ep := dblEps_pos (K := K)
  have vp : 0 < a.cornerV := by linarith [h.v0]
  have dp : 0 < (a.isc - a.cornerI) / a.cornerV := div_pos (ep.trans h.i1) vp
  unfold NodeVoltage ArrayCurve.flux ArrayCurve.source ArrayCurve.admittance at hn
  simp only [Bool.false_eq_true, if_false] at hn
  rw [if_pos (show a.cornerV > dblEps by linarith [h.v0])] at hn
  generalize (a.isc - a.cornerI) / a.cornerV = y at dp hn
  have e : (y + g) * (v - a.cornerV) = j - g * a.cornerV := by linear_combination -hn
  have yp : 0 < y + g := by linarith
  constructor
  · intro c
    have := mul_nonneg yp.le (sub_nonneg.2 c)
    linarith
  · intro c
    by_contra c2
    push Not at c2
    have := mul_pos yp (sub_pos.2 c2)
    nlinarith

private theorem open_side (a : ArrayCurve K) (h : ProperArray a) (g j v : K) (hg : 0 ≤ g) (hn : NodeVoltage a true g j v) :
    a.cornerV ≤ v ↔ g * a.cornerV ≤ j + a.cornerI := by
  have ep := dblEps_pos (K := K)
  have hd : 0 < a.voc - a.cornerV := ep.trans h.v1
  have dp : 0 < a.cornerI / (a.voc - a.cornerV) := div_pos h.i0 hd
  have e0 : a.cornerI / (a.voc - a.cornerV) * (a.voc - a.cornerV) = a.cornerI := div_mul_cancel₀ _ hd.ne'
  unfold NodeVoltage ArrayCurve.flux ArrayCurve.source ArrayCurve.admittance at hn
  simp only [if_true] at hn
  rw [if_pos h.v1] at hn
  generalize a.cornerI / (a.voc - a.cornerV) = y at dp hn e0
  have e : (y + g) * (v - a.cornerV) = j + a.cornerI - g * a.cornerV := by linear_combination -hn + e0
  have yp : 0 < y + g := by linarith
  constructor
  · intro c
    have := mul_nonneg yp.le (sub_nonneg.2 c)
    linarith
  · intro c
    by_contra c2
    push Not at c2
    have := mul_pos yp (sub_pos.2 c2)
    nlinarith

/-- **C78**: with such a load at most one of the two sides is rejected, so the array rejects no more than once; but because of
the failure above, for a range of loads both sides are confirmed, and what the array gives depends on the side that it was left at. -/
theorem c78_sides (a : ArrayCurve K) (h : ProperArray a) (g j v w : K) (hg : 0 ≤ g) (hs : NodeVoltage a false g j v)
    (ho : NodeVoltage a true g j w) :
    ((a.confirm true false v).1 = true ∨ (a.confirm true true w).1 = true) ∧
      ((a.confirm true false v).1 = true ∧ (a.confirm true true w).1 = true ↔
        0 < g * a.cornerV - j ∧ g * a.cornerV - j ≤ a.cornerI) := by
  have s := short_side a h g j v hg hs
  have o := open_side a h g j w hg ho
  rw [(c78_confirm a false v).1, (c78_confirm a true w).1]
  simp only [Bool.false_eq_true, false_iff, true_iff, s, o, not_le]
  have := h.i0
  constructor
  · by_cases c : j < g * a.cornerV
    · exact Or.inl c
    · right
      push Not at c
      linarith
  · constructor
    · rintro ⟨h1, h2⟩
      exact ⟨by linarith, by linarith⟩
    · rintro ⟨h1, h2⟩
      exact ⟨by linarith, by linarith⟩

/-! ## Predictions and loads -/

/-- **C78**: the load that the array predicts at a voltage is that of its curve. -/
theorem c78_predict_load (a : ArrayCurve K) (h : ProperArray a) (v i : K) (h0 : dblEps ≤ v) (h1 : v ≤ a.voc) (hi : dblEps ≤ i)
    (hl : PvLines a.isc a.cornerV a.cornerI a.voc v i) : a.predictLoad v = some (i * v, i / v) := by
  have ep := dblEps_pos (K := K)
  have vp : 0 < a.cornerV := by linarith [h.v0]
  have hd : 0 < a.voc - a.cornerV := ep.trans h.v1
  have v0 : 0 < v := ep.trans_le h0
  have i0 : 0 < i := ep.trans_le hi
  have e : a.currentAt v = i := by
    unfold ArrayCurve.currentAt
    by_cases c : v < a.cornerV
    · rw [if_pos c]
      have : a.isc - (a.isc - a.cornerI) * v / a.cornerV = i := by
        apply mul_right_cancel₀ vp.ne'
        rw [sub_mul, div_mul_cancel₀ _ vp.ne', hl.1 c.le]
        ring
      rw [this, max_eq_right hi]
    · rw [if_neg c]
      have : a.cornerI * (v - a.voc) / (a.cornerV - a.voc) = i := by
        rw [div_eq_iff (by linarith)]
        have := hl.2 (not_lt.1 c)
        linarith
      rw [this, max_eq_right hi]
  unfold ArrayCurve.predictLoad
  rw [if_neg (not_not.2 ⟨h0, h1⟩), if_neg (fun c => by linarith [c.2]), e, mul_div_mul_left _ _ i0.ne']

omit [IsStrictOrderedRing K] in
/-- **C78**: out of the range of the curve no load is predicted. -/
theorem c78_predict_out (a : ArrayCurve K) (v : K) (h : v < dblEps ∨ a.voc < v) : a.predictLoad v = some (0, 0) := by
  unfold ArrayCurve.predictLoad
  rw [if_pos]
  rintro ⟨h0, h1⟩
  rcases h with h | h
  · exact absurd h0 (not_le.2 h)
  · exact absurd h1 (not_le.2 h)

end Field

/-! ## Loads by power -/

private theorem root_pick2 {y src p : ℝ} (hy : 0 < y) (hd : 0 < src * src - 4 * y * p) (sign : ℝ) (hs : sign * sign = 1) (v : ℝ)
    (hv : v = 1 / 2 * (src + sign * √(src * src - 4 * y * p)) / y) :
    (src - y * v) * v = p ∧ 2 * y * v - src = sign * √(src * src - 4 * y * p) := by
  have sq := Real.mul_self_sqrt hd.le
  generalize √(src * src - 4 * y * p) = r at hv sq ⊢
  have e : 2 * y * v - src = sign * r := by
    have : v * y = 1 / 2 * (src + sign * r) := by rw [hv, div_mul_cancel₀ _ hy.ne']
    linarith
  refine ⟨?_, e⟩
  have : 4 * y * ((src - y * v) * v) = 4 * y * p := by
    have : (2 * y * v - src) * (2 * y * v - src) = src * src - 4 * y * p := by
      rw [e]
      calc sign * r * (sign * r) = sign * sign * (r * r) := by ring
        _ = src * src - 4 * y * p := by rw [hs, sq, one_mul]
    linarith
  exact mul_left_cancel₀ (by linarith) this

/-- **C78**: an array put at a power less than the maximum on the short circuit side is at a point of that side of its curve
with that power, below the maximum power point. -/
theorem c78_load_power_short (strings : List (StringCurve ℝ)) (a : ArrayCurve ℝ) (ha : a = updateArray strings) (h : ProperArray a)
    (old : Load ℝ) (p : ℝ) (h0 : dblEps * a.isc ≤ p) (h0' : dblEps ≤ p) (h1 : p < a.mpp.power) :
    ∃ l, a.loadAtPower old p true = some l ∧ l.power = p ∧ l.voltage * l.current = p ∧ l.conductance * l.voltage = l.current ∧
      0 < l.voltage ∧ l.voltage < a.mpp.voltage ∧ PvLines a.isc a.cornerV a.cornerI a.voc l.voltage l.current := by
  have em : a.mpp = arrayMpp a.isc a.cornerV a.cornerI := by
    rw [ha]
    rfl
  obtain ⟨f0, f1, f2, f3, f4, f5, f6, f7⟩ := mpp_facts h.v0 h.i0 h.i1
  rw [← em] at f0 f1 f2 f3 f4 f5 f6 f7
  have ep := dblEps_pos (K := ℝ)
  have vp : 0 < a.cornerV := by linarith [h.v0]
  have dp : 0 < a.isc - a.cornerI := ep.trans h.i1
  have ip : 0 < a.isc := by linarith [h.i0]
  have vm : 0 < a.mpp.voltage := ep.trans_le f1
  have pp : 0 < p := ep.trans_le h0'
  unfold ArrayCurve.loadAtPower
  rw [if_neg (not_lt.2 h0'), if_pos h1]
  simp only [if_true]
  rw [if_neg vp.ne']
  obtain ⟨y, hy⟩ : ∃ y, y = (a.isc - a.cornerI) / a.cornerV := ⟨_, rfl⟩
  have yp : 0 < y := by
    rw [hy]
    exact div_pos dp vp
  have ye : y * a.cornerV = a.isc - a.cornerI := by rw [hy, div_mul_cancel₀ _ vp.ne']
  rw [← hy]
  -- the maximum power point on the line
  have mi : a.mpp.current = a.isc - y * a.mpp.voltage := by
    apply mul_right_cancel₀ vp.ne'
    rw [f3]
    linear_combination a.mpp.voltage * ye
  have my : 2 * y * a.mpp.voltage ≤ a.isc := by
    have : 2 * y * a.mpp.voltage * a.cornerV ≤ a.isc * a.cornerV := by
      have : 2 * y * a.mpp.voltage * a.cornerV = 2 * (a.isc - a.cornerI) * a.mpp.voltage := by rw [← ye]; ring
      linarith
    exact le_of_mul_le_mul_right this vp
  have hpm : p < a.mpp.voltage * (a.isc - y * a.mpp.voltage) := by
    rw [← mi, ← f4]
    exact h1
  have disc : 0 < a.isc * a.isc - 4 * y * p := by
    have := mul_lt_mul_of_pos_left hpm yp
    nlinarith [sq_nonneg (a.isc - 2 * y * a.mpp.voltage)]
  rw [if_pos disc, if_neg yp.ne']
  obtain ⟨v, hv⟩ : ∃ v, v = 1 / 2 * (a.isc + -1 * √(a.isc * a.isc - 4 * y * p)) / y := ⟨_, rfl⟩
  obtain ⟨e1, e2⟩ := root_pick2 yp disc (-1) (by norm_num) v hv
  have sp : 0 < √(a.isc * a.isc - 4 * y * p) := Real.sqrt_pos.2 disc
  have slt : √(a.isc * a.isc - 4 * y * p) < a.isc := by
    rw [Real.sqrt_lt' ip]
    nlinarith [mul_pos yp pp]
  have v0 : 0 < v := by
    by_contra c
    push Not at c
    nlinarith [mul_nonneg yp.le (neg_nonneg.2 c)]
  have vge : dblEps ≤ v := by
    -- p = (isc - y v) v ≤ isc v
    have : p ≤ a.isc * v := by nlinarith [mul_pos yp (mul_pos v0 v0)]
    have : dblEps * a.isc ≤ v * a.isc := by linarith
    exact le_of_mul_le_mul_right this ip
  rw [← hv, max_eq_right vge]
  have cur : p / v = a.isc - y * v := by
    rw [div_eq_iff v0.ne', e1]
  have vlt : v < a.mpp.voltage := by
    by_contra c
    push Not at c
    have t : 0 < a.isc - y * (v + a.mpp.voltage) := by nlinarith
    nlinarith [mul_nonneg (sub_nonneg.2 c) t.le]
  refine ⟨_, rfl, rfl, mul_div_cancel₀ _ v0.ne', div_mul_cancel₀ _ v0.ne', v0, vlt, fun _ => ?_, fun c => ?_⟩
  · simp only
    rw [cur]
    linear_combination -v * ye
  · have : a.cornerV ≤ v := c
    linarith

/-- **C78**: and on the open circuit side, for powers up to that of the corner. -/
theorem c78_load_power_open (a : ArrayCurve ℝ) (h : ProperArray a) (old : Load ℝ) (p : ℝ) (h0 : dblEps ≤ p) (h1 : p < a.mpp.power)
    (h2 : p < a.cornerV * a.cornerI) :
    ∃ l, a.loadAtPower old p false = some l ∧ l.power = p ∧ l.voltage * l.current = p ∧ l.conductance * l.voltage = l.current ∧
      a.cornerV < l.voltage ∧ l.voltage < a.voc ∧ PvLines a.isc a.cornerV a.cornerI a.voc l.voltage l.current := by
  have ep := dblEps_pos (K := ℝ)
  have vp : 0 < a.cornerV := by linarith [h.v0]
  have hd : 0 < a.voc - a.cornerV := ep.trans h.v1
  have pp : 0 < p := ep.trans_le h0
  have vocp : 0 < a.voc := by linarith
  unfold ArrayCurve.loadAtPower
  rw [if_neg (not_lt.2 h0), if_pos h1]
  simp only [Bool.false_eq_true, if_false]
  rw [if_neg hd.ne']
  obtain ⟨y, hy⟩ : ∃ y, y = a.cornerI / (a.voc - a.cornerV) := ⟨_, rfl⟩
  have yp : 0 < y := by
    rw [hy]
    exact div_pos h.i0 hd
  have ye : y * (a.voc - a.cornerV) = a.cornerI := by rw [hy, div_mul_cancel₀ _ hd.ne']
  rw [← hy]
  have hpc : p < y * ((a.voc - a.cornerV) * a.cornerV) := by
    calc p < a.cornerV * a.cornerI := h2
      _ = _ := by rw [← ye]; ring
  have disc : 0 < y * a.voc * (y * a.voc) - 4 * y * p := by
    have := mul_lt_mul_of_pos_left hpc yp
    nlinarith [mul_nonneg (mul_pos yp yp).le (sq_nonneg (a.voc - 2 * a.cornerV))]
  rw [if_pos disc, if_neg yp.ne']
  obtain ⟨v, hv⟩ : ∃ v, v = 1 / 2 * (y * a.voc + 1 * √(y * a.voc * (y * a.voc) - 4 * y * p)) / y := ⟨_, rfl⟩
  obtain ⟨e1, e2⟩ := root_pick2 yp disc 1 (by norm_num) v hv
  have sp : 0 < √(y * a.voc * (y * a.voc) - 4 * y * p) := Real.sqrt_pos.2 disc
  have slt : √(y * a.voc * (y * a.voc) - 4 * y * p) < y * a.voc := by
    rw [Real.sqrt_lt' (mul_pos yp vocp)]
    nlinarith [mul_pos yp pp]
  have vhalf : a.voc < 2 * v := by
    by_contra c
    push Not at c
    nlinarith [mul_nonneg yp.le (sub_nonneg.2 c)]
  have v0 : 0 < v := by linarith
  have e3 : y * ((a.voc - v) * v) = p := by linarith
  have vlt : v < a.voc := by
    by_contra c
    push Not at c
    nlinarith [mul_nonneg (mul_pos yp v0).le (sub_nonneg.2 c)]
  have vgt : a.cornerV < v := by
    by_contra c
    push Not at c
    have : (a.voc - a.cornerV) * a.cornerV ≤ (a.voc - v) * v := by
      nlinarith [mul_nonneg (sub_nonneg.2 c) (show 0 ≤ a.cornerV + v - a.voc by linarith)]
    have := mul_le_mul_of_nonneg_left this yp.le
    linarith
  have vge : dblEps ≤ v := by linarith [h.v0]
  rw [← hv, max_eq_right vge]
  have cur : p / v = y * (a.voc - v) := by
    rw [div_eq_iff v0.ne', ← e3]
    ring
  refine ⟨_, rfl, rfl, mul_div_cancel₀ _ v0.ne', div_mul_cancel₀ _ v0.ne', vgt, vlt, fun c => ?_, fun _ => ?_⟩
  · have : v ≤ a.cornerV := c
    linarith
  · simp only
    rw [cur]
    linear_combination (a.voc - v) * ye

/-! ## Examples -/

/-- Five strings of 2 A and 120 V with corners at 1.8 A and 100 V. -/
private def exString : PvString ℚ where
  active := 1
  shuntDrop := 0
  seriesDrop := 0
  source := 0
  rsh := 1
  rs := 1
  isc := 2
  voc := 120
  mpp := ⟨9 / 500, 9 / 5, 180, 100⟩

private def exArray : ArrayCurve ℚ := updateArray (List.replicate 5 exString.curve)

private instance (a : ArrayCurve ℚ) : Decidable (ProperArray a) :=
  decidable_of_iff (2 * dblEps ≤ a.cornerV ∧ dblEps < a.voc - a.cornerV ∧ 0 < a.cornerI ∧ dblEps < a.isc - a.cornerI)
    ⟨fun h => ⟨h.1, h.2.1, h.2.2.1, h.2.2.2⟩, fun h => ⟨h.v0, h.v1, h.i0, h.i1⟩⟩

/-- The points of the array are in order, with 10 A, 9 A at 100 V and 120 V, and 900 W. -/
example : ProperArray exArray ∧ exArray.isc = 10 ∧ exArray.cornerI = 9 ∧ exArray.cornerV = 100 ∧ exArray.voc = 120 ∧
    exArray.mpp.power = 900 := by
  decide +kernel

/-- The failure: with 0.1 S at its node, the array at its short circuit side gives 10/11 A at 100/11 V, where its curve has
109/11 A; its curve meets this load at 90.9 V, with ten times the current. -/
example : exArray.flux false (100 / 11) = 10 / 11 ∧ exArray.currentAt (100 / 11) = 109 / 11 := by decide +kernel

/-- The two solutions: with 0.05 S, the short circuit side is confirmed at 50/3 V and the open circuit side at 108 V. -/
example : exArray.flux false (50 / 3) = 1 / 20 * (50 / 3) ∧ exArray.flux true 108 = 1 / 20 * 108 ∧
    exArray.confirm true false (50 / 3) = (true, false) ∧ exArray.confirm true true 108 = (true, true) := by
  decide +kernel

/-- The failure of the maximum power point: a string of 2 A at 30 V and up to 100 V makes 60 W there and 71 W at 50 V. -/
example : (updateArray (K := ℚ) [⟨3, 100, ⟨2 / 30, 2, 60, 30⟩, fun v => if v = 30 then 2 else 0⟩]).mpp.power = 60 ∧
    (updateArray (K := ℚ) [⟨3, 100, ⟨2 / 30, 2, 60, 30⟩, fun v => if v = 30 then 2 else 0⟩]).predictLoad 50 = some (500 / 7, 1 / 35) := by
  decide +kernel

end Gunns.Props
