import Verif.Math.InterpLemmas

/-!
# The linear interpolator over any history of calls
-/

set_option linter.unusedSectionVars false

namespace Gunns.Interp

variable {K : Type _} [Field K] [LinearOrder K] [IsStrictOrderedRing K]

/-- The object holds an increasing table for the range, which is the table `x`, `z` up to order. -/
structure Holds (x z : Nat → K) (n : Nat) (lo hi : K) (s : Lin K) : Prop where
  alloc : s.alloc = true
  len : s.n = n
  asc : Asc s.x n
  cover0 : s.x 0 ≤ lo
  cover1 : hi ≤ s.x (n - 1)
  range : lo < hi
  minX : s.minX = lo
  maxX : s.maxX = hi
  idx : s.i + 1 < n
  same : ∀ t v, IsInterp s.x s.z n t v → IsInterp x z n t v

theorem init_ok {x z : Nat → K} {n : Nat} {lo hi : K} {s0 s : Lin K} (h : Lin.init x z n lo hi s0 = .ok s) :
    lo < hi ∧ 2 ≤ n ∧ orderedLoop n x = true ∧ s.n = n ∧ s.alloc = true ∧ s.flag = true ∧ s.minX = lo ∧ s.maxX = hi ∧
    s.i = s0.i ∧ s.x = (fun i => if x 1 < x 0 then x (n - i - 1) else x i) ∧
    s.z = (fun i => if x 1 < x 0 then z (n - i - 1) else z i) ∧ s.x 0 ≤ lo ∧ hi ≤ s.x (n - 1) := by
  unfold Lin.init at h
  simp only at h
  by_cases h1 : hi ≤ lo
  · rw [if_pos h1] at h; cases h
  rw [if_neg h1] at h
  by_cases h2 : validateOrdered n x = false
  · rw [if_pos h2] at h; cases h
  rw [if_neg h2] at h
  rcases ite_eq_iff.mp h with ⟨_, h⟩ | ⟨h3, h⟩
  · cases h
  push Not at h3 h1
  injection h with h
  subst h
  unfold validateOrdered at h2
  split_ifs at h2 with h4
  · exact absurd rfl h2
  refine ⟨h1, by omega, by simpa using h2, rfl, rfl, rfl, rfl, rfl, rfl, by simp, by simp, h3.1, h3.2⟩

/-- After a successful `init` the object holds the table. -/
theorem holds_init {x z : Nat → K} {n : Nat} {lo hi : K} {s0 s : Lin K} (h : Lin.init x z n lo hi s0 = .ok s)
    (hi0 : s0.i + 1 < n) : Holds x z n lo hi s ∧ (Asc x n ∨ Desc x n) := by
  obtain ⟨h1, h2, h3, h4, h5, h6, h7, h8, h9, h10, h11, h12, h13⟩ := init_ok h
  by_cases hd : x 1 < x 0
  · simp only [hd, if_true] at h10 h11
    have hD := desc_of_ordered h3 hd
    refine ⟨⟨h5, h4, by rw [h10]; exact hD.rev, h12, h13, h1, h7, h8, by rw [h9]; exact hi0, ?_⟩, Or.inr hD⟩
    intro t v hv
    rw [h10, h11] at hv
    exact isInterp_rev (fun i hi => (hD i hi).ne') hv
  · simp only [hd, if_false] at h10 h11
    have hlt : x 0 < x 1 := by
      rcases Nat.lt_or_ge 2 n with h | h
      · exact lt_of_le_of_ne (not_lt.mp hd) (ordered_ne h3 h)
      · have : n = 2 := by omega
        subst this
        rw [h10] at h12 h13
        exact lt_of_le_of_lt h12 (lt_of_lt_of_le h1 h13)
    have hA := asc_of_ordered h3 hlt
    refine ⟨⟨h5, h4, by rw [h10]; exact hA, h12, h13, h1, h7, h8, by rw [h9]; exact hi0, ?_⟩, Or.inl hA⟩
    intro t v hv
    rw [h10, h11] at hv
    exact hv

/-- Evaluation in range gives the interpolant and keeps the table. -/
theorem evaluate_spec {x z : Nat → K} {n : Nat} {lo hi t : K} {s : Lin K} (h : Holds x z n lo hi s) (t0 : lo ≤ t)
    (t1 : t ≤ hi) : ∃ v s1, s.evaluate t = some (v, s1) ∧ Holds x z n lo hi s1 ∧ IsInterp x z n t v := by
  obtain ⟨k, k1, k2, k3, k4⟩ := selectCell_spec h.asc h.idx (h.cover0.trans t0) (t1.trans h.cover1)
  unfold Lin.evaluate
  rw [if_pos h.alloc, show selectCell t s.x s.n s.i = some k by rw [h.len]; exact k1]
  refine ⟨_, _, rfl, ⟨h.alloc, h.len, h.asc, h.cover0, h.cover1, h.range, h.minX, h.maxX, k2, h.same⟩, ?_⟩
  refine h.same _ _ (isInterp_of_cell h.asc k2 k3 k4 ?_)
  unfold line
  rw [mul_div_assoc]

/-- What a call must answer. -/
def Answer (x z : Nat → K) (n : Nat) (lo hi : K) : Call K → Option K → Prop
  | .get t, o => ∃ v, o = some v ∧ IsInterp x z n (clamp lo t hi) v
  | .exact t, o => (lo ≤ t ∧ t ≤ hi → ∃ v, o = some v ∧ IsInterp x z n t v) ∧ (¬ (lo ≤ t ∧ t ≤ hi) → o = none)

theorem call_spec {x z : Nat → K} {n : Nat} {lo hi : K} {s : Lin K} (h : Holds x z n lo hi s) (c : Call K) :
    ∃ o s1, s.call c = some (o, s1) ∧ Holds x z n lo hi s1 ∧ Answer x z n lo hi c o := by
  cases c with
  | get t =>
    have hm := clamp_mem (t := t) h.range.le
    obtain ⟨v, s1, e, h1, h2⟩ := evaluate_spec h hm.1 hm.2
    refine ⟨some v, s1, ?_, h1, v, rfl, h2⟩
    simp only [Lin.call, Lin.get]
    rw [h.minX, h.maxX, limitRange_eq h.range.le, e]; rfl
  | exact t =>
    simp only [Lin.call, Lin.getExceptional, Answer]
    rw [h.minX, h.maxX]
    by_cases hr : lo ≤ t ∧ t ≤ hi
    · obtain ⟨v, s1, e, h1, h2⟩ := evaluate_spec h hr.1 hr.2
      have hn : ¬ (t < lo ∨ hi < t) := by push Not; exact hr
      rw [if_neg hn, e]
      exact ⟨some v, s1, rfl, h1, fun _ => ⟨v, rfl, h2⟩, fun hc => absurd hr hc⟩
    · have hn : t < lo ∨ hi < t := by
        by_contra hc
        push Not at hc
        exact hr hc
      rw [if_pos hn]
      exact ⟨none, s, rfl, h, fun hc => absurd hc hr, fun _ => rfl⟩

/-- Invariant rule for sequences of calls. -/
theorem runCalls_spec {C O σ : Type _} {f : C → σ → Option (O × σ)} {Inv : σ → Prop} {A : C → O → Prop}
    (h : ∀ s, Inv s → ∀ c, ∃ o s1, f c s = some (o, s1) ∧ Inv s1 ∧ A c o) (cs : List C) {s : σ} (hs : Inv s) :
    ∃ os s1, runCalls f cs s = some (os, s1) ∧ Inv s1 ∧ List.Forall₂ A cs os := by
  induction cs generalizing s with
  | nil => exact ⟨[], s, rfl, hs, List.Forall₂.nil⟩
  | cons c cs ih =>
    obtain ⟨o, s1, e1, h1, a1⟩ := h s hs c
    obtain ⟨os, s2, e2, h2, a2⟩ := ih h1
    refine ⟨o :: os, s2, ?_, h2, List.Forall₂.cons a1 a2⟩
    simp only [runCalls]
    rw [e1]
    simp only [e2]

theorem run_spec {x z : Nat → K} {n : Nat} {lo hi : K} (cs : List (Call K)) {s : Lin K} (h : Holds x z n lo hi s) :
    ∃ os s1, runCalls Lin.call cs s = some (os, s1) ∧ Holds x z n lo hi s1 ∧
      List.Forall₂ (Answer x z n lo hi) cs os :=
  runCalls_spec (fun _ hs c => call_spec hs c) cs h

/-! ## Consequences for the values -/

/-- At a point of the table the value is that of the table. -/
theorem IsInterp.knot {x z : Nat → K} {n k : Nat} {v : K} (hm : Asc x n ∨ Desc x n) (hk : k < n) (hn : 2 ≤ n)
    (h : IsInterp x z n (x k) v) : v = z k := by
  have hne : ∀ i, i + 1 < n → x i ≠ x (i + 1) := fun i hi => by
    rcases hm with hm | hm
    · exact (hm i hi).ne
    · exact (hm i hi).ne'
  have hb : ∀ i, i + 1 < n → Between (x i) (x i) (x (i + 1)) ∧ Between (x i) (x (i + 1)) (x (i + 1)) := fun i hi => by
    rcases hm with hm | hm
    · exact ⟨Or.inl ⟨le_rfl, (hm i hi).le⟩, Or.inl ⟨(hm i hi).le, le_rfl⟩⟩
    · exact ⟨Or.inr ⟨(hm i hi).le, le_rfl⟩, Or.inr ⟨le_rfl, (hm i hi).le⟩⟩
  rcases Nat.lt_or_ge (k + 1) n with h1 | h1
  · rw [h.2 k h1 (hb k h1).1, line_left]
  · obtain ⟨j, rfl⟩ : ∃ j, k = j + 1 := ⟨k - 1, by omega⟩
    rw [h.2 j hk (hb j hk).2, line_right (hne j hk)]

theorem line_mem {a b fa fb t lo hi : K} (hne : a ≠ b) (hb : Between a t b) (l1 : lo ≤ fa) (l2 : lo ≤ fb)
    (u1 : fa ≤ hi) (u2 : fb ≤ hi) : lo ≤ line a b fa fb t ∧ line a b fa fb t ≤ hi := by
  obtain ⟨w, w0, w1, e⟩ : ∃ w : K, 0 ≤ w ∧ w ≤ 1 ∧ line a b fa fb t = fa + (fb - fa) * w := by
    refine ⟨(t - a) / (b - a), ?_, ?_, rfl⟩
    · rcases hb with hb | hb
      · exact div_nonneg (by linarith) (by linarith)
      · exact div_nonneg_of_nonpos (by linarith) (by linarith)
    · rcases hb with hb | hb
      · have : 0 < b - a := by
          have := lt_of_le_of_ne (hb.1.trans hb.2) hne
          linarith
        rw [div_le_one this]; linarith
      · have : b - a < 0 := by
          have := lt_of_le_of_ne (hb.1.trans hb.2) hne.symm
          linarith
        rw [div_le_one_of_neg this]; linarith
  rw [e]
  constructor
  · have : fa + (fb - fa) * w = fa * (1 - w) + fb * w := by ring
    rw [this]
    have h1 := mul_le_mul_of_nonneg_right l1 (by linarith : 0 ≤ 1 - w)
    have h2 := mul_le_mul_of_nonneg_right l2 w0
    nlinarith
  · have : fa + (fb - fa) * w = fa * (1 - w) + fb * w := by ring
    rw [this]
    have h1 := mul_le_mul_of_nonneg_right u1 (by linarith : 0 ≤ 1 - w)
    have h2 := mul_le_mul_of_nonneg_right u2 w0
    nlinarith

/-- An interpolant never leaves the bounds of the values. -/
theorem IsInterp.bounds {x z : Nat → K} {n : Nat} {t v lo hi : K} (hm : Asc x n ∨ Desc x n)
    (hz : ∀ k < n, lo ≤ z k ∧ z k ≤ hi) (h : IsInterp x z n t v) : lo ≤ v ∧ v ≤ hi := by
  obtain ⟨⟨k, hk, hb⟩, h⟩ := h
  rw [h k hk hb]
  have hne : x k ≠ x (k + 1) := by
    rcases hm with hm | hm
    · exact (hm k hk).ne
    · exact (hm k hk).ne'
  exact line_mem hne hb (hz k (by omega)).1 (hz (k + 1) hk).1 (hz k (by omega)).2 (hz (k + 1) hk).2

/-- Nondecreasing values give a nondecreasing interpolant. -/
theorem IsInterp.mono_asc {x z : Nat → K} {n : Nat} {t u v w : K} (ha : Asc x n)
    (hz : ∀ k, k + 1 < n → z k ≤ z (k + 1)) (ht : IsInterp x z n t v) (hu : IsInterp x z n u w) (htu : t ≤ u) :
    v ≤ w := by
  obtain ⟨⟨k, hk, hb⟩, h1⟩ := ht
  obtain ⟨⟨l, hl, hc⟩, h2⟩ := hu
  have e1 := h1 k hk hb
  have e2 := h2 l hl hc
  have b1 := between_asc (ha k hk) hb
  have b2 := between_asc (ha l hl) hc
  have hzle : ∀ i j, i ≤ j → j < n → z i ≤ z j := by
    intro i j hij hj
    induction j with
    | zero =>
      have : i = 0 := by omega
      rw [this]
    | succ j ih =>
      rcases Nat.lt_or_ge j i with h | h
      · have : i = j + 1 := by omega
        rw [this]
      · exact (ih h (by omega)).trans (hz j hj)
  rcases Nat.lt_trichotomy k l with hkl | hkl | hkl
  · have v1 : v ≤ z (k + 1) := by
      rw [e1]; exact (line_mem (ha k hk).ne hb le_rfl (hz k hk) (hz k hk) le_rfl).2
    have w1 : z l ≤ w := by
      rw [e2]; exact (line_mem (ha l hl).ne hc le_rfl (hz l hl) (hz l hl) le_rfl).1
    exact v1.trans ((hzle (k + 1) l hkl (by omega)).trans w1)
  · subst hkl
    rw [e1, e2]
    unfold line
    have : 0 < x (k + 1) - x k := sub_pos.mpr (ha k hk)
    have h3 : (t - x k) / (x (k + 1) - x k) ≤ (u - x k) / (x (k + 1) - x k) :=
      div_le_div_of_nonneg_right (by linarith) this.le
    have := mul_le_mul_of_nonneg_left h3 (sub_nonneg.mpr (hz k hk))
    linarith
  · -- the cells are adjacent and both arguments are the point between them
    have h3 : x (l + 1) ≤ x k := ha.le (by omega) (by omega)
    have h4 : t = u := le_antisymm htu (b2.2.trans (h3.trans b1.1))
    subst h4
    rw [e1, e2, line_cell ha hk hl b1.1 b1.2 b2.1 b2.2]

/-- The interpolant of values with the line of slope `a` subtracted. -/
theorem IsInterp.shear {x z : Nat → K} {n : Nat} {t v : K} (a b : K) (hm : Asc x n) (h : IsInterp x z n t v) :
    IsInterp x (fun k => b * z k - a * x k) n t (b * v - a * t) := by
  refine ⟨h.1, fun k hk hb => ?_⟩
  rw [h.2 k hk hb]
  have : x (k + 1) - x k ≠ 0 := (sub_pos.mpr (hm k hk)).ne'
  unfold line
  field_simp
  ring

/-- The slope of the interpolant is within the bounds of the slopes of the segments. -/
theorem IsInterp.slope {x z : Nat → K} {n : Nat} {t u v w lo hi : K} (ha : Asc x n)
    (hz : ∀ k, k + 1 < n → lo * (x (k + 1) - x k) ≤ z (k + 1) - z k ∧ z (k + 1) - z k ≤ hi * (x (k + 1) - x k))
    (ht : IsInterp x z n t v) (hu : IsInterp x z n u w) (htu : t ≤ u) :
    lo * (u - t) ≤ w - v ∧ w - v ≤ hi * (u - t) := by
  constructor
  · have := IsInterp.mono_asc ha (fun k hk => by have := (hz k hk).1; linarith)
      (ht.shear lo 1 ha) (hu.shear lo 1 ha) htu
    linarith
  · have := IsInterp.mono_asc ha (fun k hk => by have := (hz k hk).2; linarith)
      (ht.shear (-hi) (-1) ha) (hu.shear (-hi) (-1) ha) htu
    linarith

end Gunns.Interp
