import Verif.Math.Brent
import Mathlib.Tactic.FieldSimp

/-!
# Lemmas about Brent's method
-/

set_option linter.unusedSectionVars false

namespace Gunns.Brent

variable {K : Type _} [Field K] [LinearOrder K] [IsStrictOrderedRing K]

theorem sameSign_comm {u v : K} : sameSign u v ↔ sameSign v u := by
  unfold sameSign
  constructor
  · rintro (⟨h1, h2⟩ | ⟨h1, h2⟩)
    · exact Or.inl ⟨h2, h1⟩
    · exact Or.inr ⟨h2, h1⟩
  · rintro (⟨h1, h2⟩ | ⟨h1, h2⟩)
    · exact Or.inl ⟨h2, h1⟩
    · exact Or.inr ⟨h2, h1⟩

theorem sameSign_trans {u v w : K} (h1 : sameSign u v) (h2 : sameSign v w) : sameSign u w := by
  rcases h1 with ⟨h1, h3⟩ | ⟨h1, h3⟩
  · rcases h2 with ⟨_, h4⟩ | ⟨h2, _⟩
    · exact Or.inl ⟨h1, h4⟩
    · exact absurd h3 (not_lt.mpr h2.le)
  · rcases h2 with ⟨h2, _⟩ | ⟨_, h4⟩
    · exact absurd h3 (not_lt.mpr h2.le)
    · exact Or.inr ⟨h1, h4⟩

theorem not_sameSign_mul {u v : K} (h : ¬ sameSign u v) : u * v ≤ 0 := by
  unfold sameSign at h
  push Not at h
  rcases lt_trichotomy u 0 with h1 | h1 | h1
  · exact mul_nonpos_of_nonpos_of_nonneg h1.le (h.2 h1)
  · rw [h1, zero_mul]
  · exact mul_nonpos_of_nonneg_of_nonpos h1.le (h.1 h1)

/-- The state fits the function and its points are in the interval. -/
structure Fits (f : K → K) (lo hi : K) (s : St K) : Prop where
  ea : s.fa = f s.a
  eb : s.fb = f s.b
  ec : s.fc = f s.c
  ma : lo ≤ s.a ∧ s.a ≤ hi
  mb : lo ≤ s.b ∧ s.b ≤ hi
  mc : lo ≤ s.c ∧ s.c ≤ hi

theorem rename_spec {f : K → K} {lo hi : K} {s : St K} (h : Fits f lo hi s) (hs : ¬ sameSign s.fa s.fc) :
    Fits f lo hi (rename s) ∧ ¬ sameSign (rename s).fb (rename s).fc := by
  unfold rename
  split_ifs with h1
  · refine ⟨⟨h.ea, h.eb, h.ea, h.ma, h.mb, h.ma⟩, fun h2 => hs ?_⟩
    exact sameSign_trans (sameSign_comm.mp h2) h1
  · exact ⟨h, h1⟩

theorem exchange_spec {f : K → K} {lo hi : K} {s : St K} (h : Fits f lo hi s) (hs : ¬ sameSign s.fb s.fc) :
    Fits f lo hi (exchange s) ∧ ¬ sameSign (exchange s).fb (exchange s).fc ∧
      |(exchange s).fb| ≤ |(exchange s).fc| := by
  unfold exchange
  split_ifs with h1
  · exact ⟨⟨h.eb, h.ec, h.eb, h.mb, h.mc, h.mb⟩, fun h2 => hs (sameSign_comm.mp h2), h1.le⟩
  · exact ⟨h, hs, not_lt.mp h1⟩

theorem quotient_some {xm : K} {s : St K} (hfa : s.fa ≠ 0) (hfc : s.fc ≠ 0) : ∃ pq, quotient xm s = some pq := by
  unfold quotient
  rw [if_neg hfa]
  split_ifs
  · exact ⟨_, rfl⟩
  · exact ⟨_, rfl⟩

/-- The step goes towards `c` by at most 3/4 of the way. -/
theorem stepOf_spec {tol1 xm : K} {s : St K} (hfb : s.fb ≠ 0) (hbc : |s.fb| ≤ |s.fc|) :
    ∃ d e, stepOf tol1 xm s = some (d, e) ∧ 0 ≤ d * xm ∧ 2 * |d| ≤ 3 * |xm| := by
  unfold stepOf
  have hxx : 0 ≤ xm * xm ∧ 2 * |xm| ≤ 3 * |xm| := ⟨mul_self_nonneg xm, by linarith [abs_nonneg xm]⟩
  by_cases h1 : tol1 ≤ |s.e| ∧ |s.fb| < |s.fa|
  · rw [if_pos h1]
    have hfa : s.fa ≠ 0 := abs_pos.mp ((abs_nonneg _).trans_lt h1.2)
    have hfc : s.fc ≠ 0 := abs_pos.mp ((abs_pos.mpr hfb).trans_le hbc)
    obtain ⟨⟨p0, q0⟩, e⟩ := quotient_some (xm := xm) hfa hfc
    rw [e]
    simp only
    generalize (if 0 < p0 then -q0 else q0) = q
    by_cases h2 : 2 * |p0| < (if 3 * xm * q - |tol1 * q| < |s.e * q| then 3 * xm * q - |tol1 * q| else |s.e * q|)
    · rw [if_pos h2]
      have h3 : 2 * |p0| < 3 * xm * q - |tol1 * q| := by
        split_ifs at h2 with h4
        · exact h2
        · exact h2.trans_le (not_lt.mp h4)
      have h4 : 0 < xm * q := by
        have := abs_nonneg (tol1 * q)
        have := abs_nonneg p0
        nlinarith
      have hq : q ≠ 0 := fun h => by rw [h, mul_zero] at h4; exact lt_irrefl _ h4
      rw [if_neg hq]
      refine ⟨_, _, rfl, ?_, ?_⟩
      · have : |p0| / q * xm = |p0| * (xm * q) / (q * q) := by field_simp
        rw [this]
        exact div_nonneg (mul_nonneg (abs_nonneg _) h4.le) (mul_self_nonneg q)
      · rw [abs_div, abs_abs]
        have hq : 0 < |q| := abs_pos.mpr hq
        have h7 : 2 * |p0| ≤ 3 * |xm| * |q| := by
          have := abs_nonneg (tol1 * q)
          have h8 : xm * q ≤ |xm| * |q| := by rw [← abs_mul]; exact le_abs_self _
          nlinarith
        rw [← mul_div_assoc, div_le_iff₀ hq]
        exact h7
    · rw [if_neg h2]
      exact ⟨_, _, rfl, hxx⟩
  · rw [if_neg h1]
    exact ⟨_, _, rfl, hxx⟩

/-- The next trial is between `b` and `c`. -/
theorem trial_spec {tol1 xm b c d : K} (hxm : xm = 1 / 2 * (c - b)) (ht : 0 ≤ tol1) (htx : tol1 < |xm|)
    (hd : 0 ≤ d * xm) (hd2 : 2 * |d| ≤ 3 * |xm|) :
    (b ≤ trial tol1 xm b d ∧ trial tol1 xm b d ≤ c) ∨ (c ≤ trial tol1 xm b d ∧ trial tol1 xm b d ≤ b) := by
  have hc : c = b + 2 * xm := by rw [hxm]; ring
  unfold trial
  rcases lt_trichotomy xm 0 with h | h | h
  · right
    rw [abs_of_neg h] at htx hd2
    have hd0 : d ≤ 0 := by
      by_contra h1
      push Not at h1
      exact absurd hd (not_le.mpr (mul_neg_of_pos_of_neg h1 h))
    rw [abs_of_nonpos hd0] at hd2
    split_ifs with h1 h2
    · constructor <;> linarith
    · exact absurd h (not_lt.mpr h2)
    · constructor <;> linarith
  · rw [h, abs_zero] at htx
    exact absurd ht (not_le.mpr htx)
  · left
    rw [abs_of_pos h] at htx hd2
    have hd0 : 0 ≤ d := by
      by_contra h1
      push Not at h1
      exact absurd hd (not_le.mpr (mul_neg_of_neg_of_pos h1 h))
    rw [abs_of_nonneg hd0] at hd2
    split_ifs with h1 h2
    · constructor <;> linarith
    · constructor <;> linarith
    · exact absurd h.le h2

theorem tolOf_nonneg {tol b : K} (h : 0 ≤ tol) : 0 ≤ tolOf tol b := by
  unfold tolOf
  have h1 : (0 : K) < dblEps := dblEps_pos
  have h2 := abs_nonneg b
  have := mul_nonneg h1.le h2
  nlinarith

/-- What is known of a root that was returned. -/
def Good (f : K → K) (lo hi tol x : K) : Prop :=
  (lo ≤ x ∧ x ≤ hi) ∧ (f x = 0 ∨ ∃ c, (lo ≤ c ∧ c ≤ hi) ∧ ¬ sameSign (f x) (f c) ∧ |f x| ≤ |f c| ∧
    |c - x| ≤ 2 * tolOf tol x)

/-- One iteration: a good root, or a state that fits; the function is evaluated in the interval only. -/
theorem turn_spec {f : K → K} {lo hi tol : K} (ht : 0 ≤ tol) {s : St K} (h : Fits f lo hi s)
    (hs : ¬ sameSign s.fa s.fc) :
    (∃ x, turn f tol s = some (.inl x) ∧ Good f lo hi tol x) ∨
    (∃ s1, turn f tol s = some (.inr s1) ∧ Fits f lo hi s1 ∧ ¬ sameSign s1.fa s1.fc) := by
  obtain ⟨h1, h2⟩ := rename_spec h hs
  obtain ⟨h3, h4, h5⟩ := exchange_spec h1 h2
  unfold turn
  simp only
  generalize exchange (rename s) = s2 at *
  by_cases hc : |1 / 2 * (s2.c - s2.b)| ≤ tolOf tol s2.b ∨ 0 = s2.fb
  · rw [if_pos hc]
    left
    refine ⟨_, rfl, h3.mb, ?_⟩
    by_cases h0 : f s2.b = 0
    · exact Or.inl h0
    · right
      refine ⟨s2.c, h3.mc, by rw [← h3.eb, ← h3.ec]; exact h4, by rw [← h3.eb, ← h3.ec]; exact h5, ?_⟩
      rcases hc with hc | hc
      · rw [abs_mul, abs_of_pos (by norm_num : (0 : K) < 1 / 2)] at hc
        linarith
      · exact absurd (h3.eb.symm.trans hc.symm) h0
  · rw [if_neg hc]
    right
    push Not at hc
    obtain ⟨d, e, e1, e2, e3⟩ := stepOf_spec (tol1 := tolOf tol s2.b) (xm := 1 / 2 * (s2.c - s2.b)) hc.2.symm h5
    rw [e1]
    refine ⟨_, rfl, ⟨h3.eb, rfl, h3.ec, h3.mb, ?_, h3.mc⟩, h4⟩
    have hb := h3.mb
    have hcc := h3.mc
    rcases trial_spec (b := s2.b) (c := s2.c) rfl (tolOf_nonneg ht) hc.1 e2 e3 with ⟨g1, g2⟩ | ⟨g1, g2⟩
    · exact ⟨hb.1.trans g1, g2.trans hcc.2⟩
    · exact ⟨hcc.1.trans g1, g2.trans hb.2⟩

theorem iterate_spec {f : K → K} {lo hi tol : K} (ht : 0 ≤ tol) (k iter : Nat) {s : St K} (h : Fits f lo hi s)
    (hs : ¬ sameSign s.fa s.fc) :
    (∃ x i, iterate f tol k iter s = .found x i ∧ iter ≤ i ∧ i < iter + k ∧ Good f lo hi tol x) ∨
    iterate f tol k iter s = .noConvergence := by
  induction k generalizing iter s with
  | zero => exact Or.inr rfl
  | succ k ih =>
    unfold iterate
    rcases turn_spec ht h hs with ⟨x, e, hg⟩ | ⟨s1, e, h1, h2⟩
    · rw [e]
      exact Or.inl ⟨x, iter, rfl, le_rfl, by omega, hg⟩
    · rw [e]
      simp only
      rcases ih (iter + 1) h1 h2 with ⟨x, i, e1, e2, e3, e4⟩ | e1
      · exact Or.inl ⟨x, i, e1, by omega, by omega, e4⟩
      · exact Or.inr e1

/-- Another function with the same values in the interval gives the same iteration. -/
theorem turn_congr {f g : K → K} {lo hi tol : K} (hfg : ∀ x, lo ≤ x → x ≤ hi → f x = g x) (ht : 0 ≤ tol) {s : St K}
    (h : Fits f lo hi s) (hs : ¬ sameSign s.fa s.fc) : turn f tol s = turn g tol s := by
  rcases turn_spec ht h hs with ⟨x, e, hg⟩ | ⟨s1, e, h1, h2⟩
  · rw [e]
    unfold turn at e ⊢
    simp only at e ⊢
    split_ifs at e ⊢ with h3
    · exact e.symm
    · exfalso
      revert e
      cases stepOf (tolOf tol (exchange (rename s)).b) (1 / 2 * ((exchange (rename s)).c - (exchange (rename s)).b))
        (exchange (rename s)) with
      | none => intro e; cases e
      | some de => intro e; simp at e
  · have hb := hfg s1.b h1.mb.1 h1.mb.2
    rw [e]
    unfold turn at e ⊢
    simp only at e ⊢
    by_cases h3 : |1 / 2 * ((exchange (rename s)).c - (exchange (rename s)).b)| ≤ tolOf tol (exchange (rename s)).b ∨
      0 = (exchange (rename s)).fb
    · rw [if_pos h3] at e
      simp at e
    rw [if_neg h3] at e ⊢
    revert e
    cases stepOf (tolOf tol (exchange (rename s)).b) (1 / 2 * ((exchange (rename s)).c - (exchange (rename s)).b))
      (exchange (rename s)) with
    | none => intro e; cases e
    | some de =>
      intro e
      simp only [Option.some.injEq, Sum.inr.injEq] at e ⊢
      subst e
      simp only at hb
      simp only [hb]

theorem iterate_congr {f g : K → K} {lo hi tol : K} (hfg : ∀ x, lo ≤ x → x ≤ hi → f x = g x) (ht : 0 ≤ tol)
    (k iter : Nat) {s : St K} (h : Fits f lo hi s) (hs : ¬ sameSign s.fa s.fc) :
    iterate f tol k iter s = iterate g tol k iter s := by
  induction k generalizing iter s with
  | zero => rfl
  | succ k ih =>
    unfold iterate
    rw [← turn_congr hfg ht h hs]
    rcases turn_spec ht h hs with ⟨x, e, hg⟩ | ⟨s1, e, h1, h2⟩
    · rw [e]
    · rw [e]
      exact ih (iter + 1) h1 h2

theorem fits_start (f : K → K) (x1 x2 : K) : Fits f (min x1 x2) (max x1 x2)
    { a := x1, b := x2, c := x2, d := 0, e := 0, fa := f x1, fb := f x2, fc := f x2 } :=
  ⟨rfl, rfl, rfl, ⟨min_le_left _ _, le_max_left _ _⟩, ⟨min_le_right _ _, le_max_right _ _⟩,
    ⟨min_le_right _ _, le_max_right _ _⟩⟩

/-! ## Where the trial points come from -/

/-- The step is half of the way to `c`, or the quotient, which is then shorter than half of the step before the last. -/
theorem stepOf_cases {tol1 xm d e : K} {s : St K} (h : stepOf tol1 xm s = some (d, e)) :
    (d = xm ∧ e = xm) ∨
    (e = s.d ∧ 2 * |d| < |s.e| ∧ ∃ p q, quotient xm s = some (p, q) ∧ q ≠ 0 ∧ d = -p / q) := by
  unfold stepOf at h
  by_cases h1 : tol1 ≤ |s.e| ∧ |s.fb| < |s.fa|
  · rw [if_pos h1] at h
    revert h
    cases hq : quotient xm s with
    | none => intro h; cases h
    | some pq =>
      obtain ⟨p0, q0⟩ := pq
      dsimp only
      have hd : |p0| / (if 0 < p0 then -q0 else q0) = -p0 / q0 := by
        split_ifs with hp
        · rw [abs_of_pos hp, div_neg, neg_div]
        · rw [abs_of_nonpos (not_lt.mp hp)]
      have hz : (if 0 < p0 then -q0 else q0) = 0 ↔ q0 = 0 := by
        split_ifs
        · exact neg_eq_zero
        · exact Iff.rfl
      revert hd hz
      generalize (if 0 < p0 then -q0 else q0) = q
      intro hd hz h
      by_cases h2 : 2 * |p0| < (if 3 * xm * q - |tol1 * q| < |s.e * q| then 3 * xm * q - |tol1 * q| else |s.e * q|)
      · rw [if_pos h2] at h
        have h3 : 2 * |p0| < |s.e * q| := by
          split_ifs at h2 with h4
          · exact h2.trans h4
          · exact h2
        by_cases hq0 : q = 0
        · rw [if_pos hq0] at h
          cases h
        rw [if_neg hq0] at h
        simp only [Option.some.injEq, Prod.mk.injEq] at h
        obtain ⟨rfl, rfl⟩ := h
        refine Or.inr ⟨rfl, ?_, p0, q0, rfl, fun h => hq0 (hz.mpr h), hd⟩
        rw [abs_div, abs_abs, ← mul_div_assoc, div_lt_iff₀ (abs_pos.mpr hq0), ← abs_mul]
        exact h3
      · rw [if_neg h2] at h
        simp only [Option.some.injEq, Prod.mk.injEq] at h
        exact Or.inl ⟨h.1.symm, h.2.symm⟩
  · rw [if_neg h1] at h
    simp only [Option.some.injEq, Prod.mk.injEq] at h
    exact Or.inl ⟨h.1.symm, h.2.symm⟩

/-- The quotient leads to the zero of the secant, or of the inverse quadratic interpolation. -/
theorem quotient_meaning {s : St K} {p q : K} (h : quotient (1 / 2 * (s.c - s.b)) s = some (p, q)) (hq : q ≠ 0) :
    s.fa ≠ s.fb ∧ (s.a = s.c → -p / q = -s.fb * (s.a - s.b) / (s.fa - s.fb)) ∧
    (s.a ≠ s.c → s.fb ≠ s.fc ∧ s.fa ≠ s.fc ∧ ∀ α β γ, α + β * s.fa + γ * s.fa ^ 2 = s.a →
      α + β * s.fb + γ * s.fb ^ 2 = s.b → α + β * s.fc + γ * s.fc ^ 2 = s.c → s.b + -p / q = α) := by
  unfold quotient at h
  by_cases h0 : s.fa = 0
  · rw [if_pos h0] at h
    cases h
  rw [if_neg h0] at h
  by_cases h1 : s.a = s.c
  · rw [if_pos h1] at h
    simp only [Option.some.injEq, Prod.mk.injEq] at h
    obtain ⟨rfl, rfl⟩ := h
    have hne : s.fa - s.fb ≠ 0 := by
      intro hz
      apply hq
      rw [← sub_eq_zero.mp hz, div_self h0, sub_self]
    refine ⟨sub_ne_zero.mp hne, fun _ => ?_, fun h => absurd h1 h⟩
    rw [← h1]
    field_simp
    try ring
  · rw [if_neg h1] at h
    by_cases h2 : s.fc = 0
    · rw [if_pos h2] at h
      cases h
    rw [if_neg h2] at h
    simp only [Option.some.injEq, Prod.mk.injEq] at h
    obtain ⟨rfl, rfl⟩ := h
    have e1 : s.fa - s.fc ≠ 0 := by
      intro hz
      apply hq
      rw [← sub_eq_zero.mp hz, div_self h0]
      ring
    have e2 : s.fb - s.fc ≠ 0 := by
      intro hz
      apply hq
      rw [sub_eq_zero.mp hz, div_self h2]
      ring
    have e3 : s.fa - s.fb ≠ 0 := by
      intro hz
      apply hq
      rw [← sub_eq_zero.mp hz, div_self h0]
      ring
    refine ⟨sub_ne_zero.mp e3, fun h => absurd h h1, fun _ => ⟨sub_ne_zero.mp e2, sub_ne_zero.mp e1, ?_⟩⟩
    intro α β γ ha hb hc
    rw [← eq_sub_iff_add_eq', div_eq_iff hq, ← ha, ← hb, ← hc]
    field_simp
    ring

/-! ## Linear functions -/

/-- A bracket no wider than the tolerance of one of its ends is narrow enough at either. -/
theorem tolOf_half {tol b b' : K} (ht : 0 ≤ tol) (hb : |b' - b| = tolOf tol b) :
    1 / 2 * |b' - b| ≤ tolOf tol b' ∧ 1 / 2 * |b' - b| ≤ tolOf tol b := by
  have h0 := tolOf_nonneg (b := b) ht
  refine ⟨?_, by rw [hb]; linarith⟩
  have h1 : |b| - |b' - b| ≤ |b'| := by
    have := abs_sub_abs_le_abs_sub b b'
    rw [abs_sub_comm b b'] at this
    linarith
  have h2 : (0 : K) < dblEps := dblEps_pos
  have h3 : (dblEps : K) ≤ 1 / 4 := by unfold dblEps; norm_num
  rw [hb] at h1 ⊢
  have h4 : 2 * dblEps * (|b| - tolOf tol b) ≤ 2 * dblEps * |b'| := by nlinarith
  have h5 : tolOf tol b' = 2 * dblEps * |b'| + 1 / 2 * tol := rfl
  have h6 : tolOf tol b = 2 * dblEps * |b| + 1 / 2 * tol := rfl
  have h7 : 2 * dblEps * tolOf tol b ≤ 1 / 2 * tolOf tol b := by nlinarith
  nlinarith

/-- An exact root, or a bracket as narrow as the tolerance, ends the iteration. -/
theorem turn_root {f : K → K} {tol : K} {s : St K} (h : s.fb = 0) : turn f tol s = some (.inl s.b) := by
  have h1 : rename s = s := by
    unfold rename
    rw [if_neg]
    rw [h]
    rintro (⟨h, -⟩ | ⟨h, -⟩) <;> exact lt_irrefl _ h
  have h2 : exchange s = s := by
    unfold exchange
    rw [if_neg]
    rw [h, abs_zero]
    exact not_lt.mpr (abs_nonneg _)
  unfold turn
  rw [h1, h2]
  dsimp only
  rw [if_pos (Or.inr h.symm)]

theorem turn_narrow {f : K → K} {tol : K} {s : St K} (h : sameSign s.fb s.fc) (ht : 0 ≤ tol)
    (hb : |s.b - s.a| = tolOf tol s.a) : ∃ x, turn f tol s = some (.inl x) := by
  obtain ⟨h1, h2⟩ := tolOf_half ht hb
  have hr : rename s = { s with
      c := s.a
      fc := s.fa
      d := s.b - s.a
      e := s.b - s.a } := by
    unfold rename
    rw [if_pos h]
  unfold turn
  rw [hr]
  unfold exchange
  dsimp only
  split_ifs with h3 h4 h5
  · exact ⟨_, rfl⟩
  · exfalso
    apply h4
    left
    dsimp only
    rw [abs_mul, abs_of_pos (by norm_num : (0 : K) < 1 / 2)]
    exact h2
  · exact ⟨_, rfl⟩
  · exfalso
    apply h5
    left
    dsimp only
    rw [abs_mul, abs_of_pos (by norm_num : (0 : K) < 1 / 2), abs_sub_comm]
    exact h1

/-- The secant step of a linear function is accepted and leads to its root. -/
theorem stepOf_linear {m k tol1 xm : K} {s : St K} (hm : m ≠ 0) (hxm : xm = 1 / 2 * (s.c - s.b)) (hac : s.a = s.c)
    (hfa : s.fa = m * s.a + k) (hfb : s.fb = m * s.b + k) (hs : ¬ sameSign s.fb s.fa) (hb0 : s.fb ≠ 0)
    (hba : |s.fb| ≤ |s.fa|) (he : |s.e| = 2 * |xm|) (ht : 0 ≤ tol1) (htx : tol1 < |xm|) :
    ∃ e, stepOf tol1 xm s = some (-s.fb / m, e) := by
  have hfa0 : s.fa ≠ 0 := abs_pos.mp ((abs_pos.mpr hb0).trans_le hba)
  have hx2 : 2 * xm = s.a - s.b := by rw [hxm, hac]; ring
  have hdiff : s.fa - s.fb = m * (2 * xm) := by rw [hfa, hfb, hx2]; ring
  unfold stepOf
  by_cases h1 : tol1 ≤ |s.e| ∧ |s.fb| < |s.fa|
  · rw [if_pos h1]
    have hq : quotient xm s = some (2 * xm * (s.fb / s.fa), 1 - s.fb / s.fa) := by
      unfold quotient
      rw [if_neg hfa0, if_pos hac]
    rw [hq]
    dsimp only
    have hS : s.fb / s.fa < 0 := by
      have := not_sameSign_mul hs
      have hlt : s.fb * s.fa < 0 := lt_of_le_of_ne this (mul_ne_zero hb0 hfa0)
      rcases lt_or_gt_of_ne hfa0 with h | h
      · exact div_neg_of_pos_of_neg (by
          by_contra hc
          push Not at hc
          exact absurd (mul_nonneg_of_nonpos_of_nonpos hc h.le) (not_le.mpr hlt)) h
      · exact div_neg_of_neg_of_pos (by
          by_contra hc
          push Not at hc
          exact absurd (mul_nonneg hc h.le) (not_le.mpr hlt)) h
    have hS1 : -1 < s.fb / s.fa := by
      have := h1.2
      have h2 : |s.fb / s.fa| < 1 := by rw [abs_div, div_lt_one (abs_pos.mpr hfa0)]; exact this
      exact (abs_lt.mp h2).1
    have hdd : -(2 * xm * (s.fb / s.fa)) / (1 - s.fb / s.fa) = -s.fb / m := by
      have h2 : (1 : K) - s.fb / s.fa ≠ 0 := by linarith
      rw [div_eq_div_iff h2 hm]
      have h3 : s.fa = s.fb + m * (2 * xm) := by linarith
      have h4 : s.fb / s.fa * s.fa = s.fb := div_mul_cancel₀ _ hfa0
      have h5 : s.fb / s.fa * (s.fb + m * (2 * xm)) = s.fb := by rw [← h3]; exact h4
      nlinarith
    generalize s.fb / s.fa = S at *
    have hx0 : xm ≠ 0 := by
      intro h
      rw [h, abs_zero] at htx
      exact absurd ht (not_le.mpr htx)
    rcases lt_or_gt_of_ne hx0 with hx | hx
    · have hp : 0 < 2 * xm * S := by nlinarith
      rw [if_pos hp, if_pos, if_neg (by intro h; linarith)]
      · refine ⟨s.d, ?_⟩
        rw [abs_of_pos hp, div_neg, ← neg_div, hdd]
      · rw [abs_of_pos hp, abs_mul, abs_mul, he, abs_of_nonneg ht, abs_of_neg hx,
          abs_of_neg (by linarith : -(1 - S) < 0)]
        rw [abs_of_neg hx] at htx
        split_ifs <;> nlinarith
    · have hp : ¬ 0 < 2 * xm * S := by
        have : 2 * xm * S < 0 := by nlinarith
        exact not_lt.mpr this.le
      rw [if_neg hp, if_pos, if_neg (by intro h; linarith)]
      · refine ⟨s.d, ?_⟩
        rw [abs_of_nonpos (not_lt.mp hp), hdd]
      · rw [abs_of_nonpos (not_lt.mp hp), abs_mul, abs_mul, he, abs_of_nonneg ht, abs_of_pos hx,
          abs_of_pos (by linarith : 0 < 1 - S)]
        rw [abs_of_pos hx] at htx
        split_ifs <;> nlinarith
  · rw [if_neg h1]
    refine ⟨xm, ?_⟩
    have heq : |s.fb| = |s.fa| := by
      by_contra hne
      apply h1
      refine ⟨?_, lt_of_le_of_ne hba hne⟩
      rw [he]
      have := abs_nonneg xm
      linarith
    have hop : s.fb = -s.fa := by
      rcases abs_eq_abs.mp heq with h | h
      · exfalso
        apply hs
        rw [h]
        rcases lt_or_gt_of_ne hfa0 with h | h
        · exact Or.inr ⟨h, h⟩
        · exact Or.inl ⟨h, h⟩
      · exact h
    have : xm = -s.fb / m := by
      rw [eq_div_iff hm]
      linarith
    rw [this]

/-- A bracketed linear function is solved by the second iteration. -/
theorem solve_linear {m k x1 x2 tol : K} (hm : m ≠ 0) (ht : 0 ≤ tol) (h : (m * x1 + k) * (m * x2 + k) ≤ 0) :
    ∃ x i, solve (fun x => m * x + k) x1 x2 tol = .found x i ∧ i ≤ 2 := by
  have hns : ¬ sameSign (m * x1 + k) (m * x2 + k) := by
    rintro (⟨h1, h2⟩ | ⟨h1, h2⟩)
    · exact absurd h (not_le.mpr (mul_pos h1 h2))
    · exact absurd h (not_le.mpr (mul_pos_of_neg_of_neg h1 h2))
  unfold solve
  rw [if_neg hns]
  by_cases hb : m * x2 + k = 0
  · refine ⟨x2, 1, ?_, by omega⟩
    unfold iterate
    rw [turn_root (by exact hb)]
  have hren : rename ({ a := x1, b := x2, c := x2, d := 0, e := 0, fa := m * x1 + k, fb := m * x2 + k, fc := m * x2 + k } : St K) =
      { a := x1, b := x2, c := x1, d := x2 - x1, e := x2 - x1, fa := m * x1 + k, fb := m * x2 + k, fc := m * x1 + k } := by
    unfold rename
    rw [if_pos]
    rcases lt_or_gt_of_ne hb with h | h
    · exact Or.inr ⟨h, h⟩
    · exact Or.inl ⟨h, h⟩
  generalize hs : exchange ({ a := x1, b := x2, c := x1, d := x2 - x1, e := x2 - x1, fa := m * x1 + k, fb := m * x2 + k, fc := m * x1 + k } : St K) = s
  have hfacts : s.a = s.c ∧ s.fa = m * s.a + k ∧ s.fb = m * s.b + k ∧ s.fc = s.fa ∧ ¬ sameSign s.fb s.fa ∧
      |s.fb| ≤ |s.fa| ∧ |s.e| = 2 * |1 / 2 * (s.c - s.b)| := by
    rw [← hs]
    unfold exchange
    dsimp only
    split_ifs with h1
    · refine ⟨rfl, rfl, rfl, rfl, hns, h1.le, ?_⟩
      dsimp only
      rw [abs_mul, abs_of_pos (by norm_num : (0 : K) < 1 / 2)]
      ring
    · refine ⟨rfl, rfl, rfl, rfl, fun h => hns (sameSign_comm.mp h), not_lt.mp h1, ?_⟩
      dsimp only
      rw [abs_mul, abs_of_pos (by norm_num : (0 : K) < 1 / 2), abs_sub_comm]
      ring
  obtain ⟨e1, e2, e3, e4, e5, e6, e7⟩ := hfacts
  unfold iterate turn
  dsimp only
  rw [hren, hs]
  by_cases hstop : |1 / 2 * (s.c - s.b)| ≤ tolOf tol s.b ∨ 0 = s.fb
  · rw [if_pos hstop]
    exact ⟨_, 1, rfl, by omega⟩
  rw [if_neg hstop]
  push Not at hstop
  obtain ⟨hw, hb0⟩ := hstop
  have ht1 := tolOf_nonneg (b := s.b) ht
  obtain ⟨e, he⟩ := stepOf_linear hm rfl e1 e2 e3 e5 hb0.symm e6 e7 ht1 hw
  rw [he]
  dsimp only
  have hroot : m * (s.b + -s.fb / m) + k = 0 := by
    rw [mul_add, mul_div_cancel₀ _ hm, e3]
    ring
  have key : ∀ s1 : St K, (∃ x, turn (fun x => m * x + k) tol s1 = some (.inl x)) →
      ∃ x i, iterate (fun x => m * x + k) tol 99 2 s1 = .found x i ∧ i ≤ 2 := by
    rintro s1 ⟨x, hx⟩
    refine ⟨x, 2, ?_, le_rfl⟩
    unfold iterate
    rw [hx]
  apply key
  unfold trial
  by_cases hd : tolOf tol s.b < |-s.fb / m|
  · rw [if_pos hd]
    exact ⟨_, turn_root hroot⟩
  · rw [if_neg hd]
    push Not at hd
    -- the trial is one tolerance away, at the root or beyond
    have hx2 : 2 * (1 / 2 * (s.c - s.b)) = s.a - s.b := by rw [e1]; ring
    generalize hxm : 1 / 2 * (s.c - s.b) = xm at *
    have hfa : s.fa = s.fb + m * (2 * xm) := by rw [e2, e3, hx2]; ring
    have hx0 : xm ≠ 0 := by
      intro h
      rw [h, abs_zero] at hw
      exact absurd ht1 (not_le.mpr hw)
    have hd' : |s.fb| ≤ tolOf tol s.b * |m| := by
      rw [abs_div, abs_neg, div_le_iff₀ (abs_pos.mpr hm)] at hd
      exact hd
    have hprod := not_sameSign_mul e5
    have hb0' : s.fb ≠ 0 := hb0.symm
    have hlen : |(if 0 ≤ xm then s.b + tolOf tol s.b else s.b - tolOf tol s.b) - s.b| = tolOf tol s.b := by
      split_ifs
      · rw [add_sub_cancel_left, abs_of_nonneg ht1]
      · rw [sub_sub_cancel_left, abs_neg, abs_of_nonneg ht1]
    by_cases hz : m * (if 0 ≤ xm then s.b + tolOf tol s.b else s.b - tolOf tol s.b) + k = 0
    · exact ⟨_, turn_root hz⟩
    · refine turn_narrow ?_ ht hlen
      dsimp only
      rw [e4]
      have hfa0 : s.fa ≠ 0 := abs_pos.mp ((abs_pos.mpr hb0').trans_le e6)
      have hv : ∀ t, m * (s.b + t) + k = s.fb + m * t := fun t => by rw [e3]; ring
      have hv' : ∀ t, m * (s.b - t) + k = s.fb - m * t := fun t => by rw [e3]; ring
      generalize tolOf tol s.b = t at *
      rcases lt_or_gt_of_ne hb0' with hn | hn
      · have hpos : 0 < s.fa := by
          rcases lt_or_gt_of_ne hfa0 with h | h
          · exact absurd hprod (not_le.mpr (mul_pos_of_neg_of_neg hn h))
          · exact h
        rw [abs_of_neg hn] at hd'
        have hmx : 0 < m * xm := by nlinarith
        refine Or.inl ⟨?_, hpos⟩
        split_ifs at hz ⊢ with hx
        · rw [hv] at hz ⊢
          have hx' : 0 < xm := lt_of_le_of_ne hx (Ne.symm hx0)
          have hm' : 0 < m := by
            by_contra hc
            push Not at hc
            nlinarith
          rw [abs_of_pos hm'] at hd'
          exact lt_of_le_of_ne (by linarith) (Ne.symm hz)
        · rw [hv'] at hz ⊢
          push Not at hx
          have hm' : m < 0 := by
            by_contra hc
            push Not at hc
            nlinarith
          rw [abs_of_neg hm'] at hd'
          exact lt_of_le_of_ne (by linarith) (Ne.symm hz)
      · have hneg : s.fa < 0 := by
          rcases lt_or_gt_of_ne hfa0 with h | h
          · exact h
          · exact absurd hprod (not_le.mpr (mul_pos hn h))
        rw [abs_of_pos hn] at hd'
        have hmx : m * xm < 0 := by nlinarith
        refine Or.inr ⟨?_, hneg⟩
        split_ifs at hz ⊢ with hx
        · rw [hv] at hz ⊢
          have hx' : 0 < xm := lt_of_le_of_ne hx (Ne.symm hx0)
          have hm' : m < 0 := by
            by_contra hc
            push Not at hc
            nlinarith
          rw [abs_of_neg hm'] at hd'
          exact lt_of_le_of_ne (by linarith) hz
        · rw [hv'] at hz ⊢
          push Not at hx
          have hm' : 0 < m := by
            by_contra hc
            push Not at hc
            nlinarith
          rw [abs_of_pos hm'] at hd'
          exact lt_of_le_of_ne (by linarith) hz

end Gunns.Brent
