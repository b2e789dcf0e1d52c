import Verif.Math.Interp
import Verif.Math.InterpSpec

/-!
# Lemmas about interpolation
-/

set_option linter.unusedSectionVars false

namespace Gunns.Interp

variable {K : Type _} [Field K] [LinearOrder K] [IsStrictOrderedRing K]

/-! ## About the specification -/

theorem line_left {a b fa fb : K} : line a b fa fb a = fa := by simp [line]

theorem line_right {a b fa fb : K} (h : a ≠ b) : line a b fa fb b = fb := by
  have : b - a ≠ 0 := sub_ne_zero.mpr (Ne.symm h)
  rw [line, div_self this]; ring

theorem line_symm {a b fa fb t : K} (h : a ≠ b) : line a b fa fb t = line b a fb fa t := by
  have h1 : b - a ≠ 0 := sub_ne_zero.mpr (Ne.symm h)
  have h2 : a - b ≠ 0 := sub_ne_zero.mpr h
  unfold line; field_simp; ring

theorem Between.symm {a t b : K} (h : Between a t b) : Between b t a := Or.symm h

theorem Asc.lt {x : Nat → K} {n : Nat} (h : Asc x n) {i j : Nat} (hij : i < j) (hj : j < n) : x i < x j := by
  induction j with
  | zero => omega
  | succ j ih =>
    rcases Nat.lt_or_ge i j with h1 | h1
    · exact (ih h1 (by omega)).trans (h j (by omega))
    · have : i = j := by omega
      subst this; exact h i (by omega)

theorem Asc.le {x : Nat → K} {n : Nat} (h : Asc x n) {i j : Nat} (hij : i ≤ j) (hj : j < n) : x i ≤ x j := by
  rcases Nat.lt_or_ge i j with h1 | h1
  · exact (h.lt h1 hj).le
  · have : i = j := by omega
    subst this; exact le_rfl

/-- In an increasing table every segment containing the argument gives the same value. -/
theorem line_cell {x z : Nat → K} {n : Nat} (h : Asc x n) {c k : Nat} {t : K} (hc : c + 1 < n) (hk : k + 1 < n)
    (c1 : x c ≤ t) (c2 : t ≤ x (c + 1)) (k1 : x k ≤ t) (k2 : t ≤ x (k + 1)) :
    line (x c) (x (c + 1)) (z c) (z (c + 1)) t = line (x k) (x (k + 1)) (z k) (z (k + 1)) t := by
  have key : ∀ c k : Nat, c + 1 < n → k + 1 < n → t ≤ x (c + 1) → x k ≤ t → c < k →
      line (x c) (x (c + 1)) (z c) (z (c + 1)) t = line (x k) (x (k + 1)) (z k) (z (k + 1)) t := by
    intro c k hc hk c2 k1 hl
    have h1 := h.le (show c + 1 ≤ k by omega) (by omega)
    have h2 : k = c + 1 := by
      by_contra hne
      have := h.lt (show c + 1 < k by omega) (by omega)
      exact absurd (k1.trans c2) (not_le.mpr this)
    subst h2
    have h3 : t = x (c + 1) := le_antisymm c2 k1
    subst h3
    rw [line_left, line_right (h c (by omega)).ne]
  rcases Nat.lt_trichotomy c k with hl | hl | hl
  · exact key c k hc hk c2 k1 hl
  · subst hl; rfl
  · exact (key k c hk hc k2 c1 hl).symm

theorem between_asc {a t b : K} (h : a < b) (hb : Between a t b) : a ≤ t ∧ t ≤ b := by
  rcases hb with hb | hb
  · exact hb
  · exact absurd (hb.1.trans hb.2) (not_le.mpr h)

/-- One segment is enough in an increasing table. -/
theorem isInterp_of_cell {x z : Nat → K} {n c : Nat} {t v : K} (h : Asc x n) (hc : c + 1 < n) (c1 : x c ≤ t)
    (c2 : t ≤ x (c + 1)) (hv : v = line (x c) (x (c + 1)) (z c) (z (c + 1)) t) : IsInterp x z n t v := by
  refine ⟨⟨c, hc, Or.inl ⟨c1, c2⟩⟩, fun k hk hb => ?_⟩
  have := between_asc (h k hk) hb
  rw [hv]; exact line_cell h hc hk c1 c2 this.1 this.2

/-- Reversal of a table does not change the function. -/
theorem isInterp_rev {x z : Nat → K} {n : Nat} {t v : K} (hne : ∀ i, i + 1 < n → x i ≠ x (i + 1))
    (h : IsInterp (fun i => x (n - i - 1)) (fun i => z (n - i - 1)) n t v) : IsInterp x z n t v := by
  obtain ⟨⟨k, hk, hb⟩, h⟩ := h
  refine ⟨⟨n - k - 2, by omega, ?_⟩, fun l hl hb' => ?_⟩
  · have e1 : n - k - 2 + 1 = n - k - 1 := by omega
    have e2 : n - (k + 1) - 1 = n - k - 2 := by omega
    simp only [e2] at hb
    rw [e1]; exact hb.symm
  · have e1 : n - (n - l - 2) - 1 = l + 1 := by omega
    have e2 : n - (n - l - 2 + 1) - 1 = l := by omega
    have := h (n - l - 2) (by omega) (by simp only [e1, e2]; exact hb'.symm)
    simp only [e1, e2] at this
    rw [this, line_symm (hne l hl).symm]

theorem IsInterp.unique {x z : Nat → K} {n : Nat} {t v w : K} (h1 : IsInterp x z n t v) (h2 : IsInterp x z n t w) :
    v = w := by
  obtain ⟨⟨k, hk, hb⟩, h⟩ := h1
  rw [h k hk hb, h2.2 k hk hb]

theorem limitRange_eq {lo hi t : K} (h : lo ≤ hi) : limitRange lo t hi = clamp lo t hi := by
  unfold limitRange clamp
  split_ifs with h1 h2
  · rw [max_eq_right ((min_le_left _ _).trans h1.le)]
  · rw [min_eq_right h2.le, max_eq_left h]
  · push Not at h1 h2
    rw [min_eq_left h2, max_eq_left h1]

theorem clamp_mem {lo hi t : K} (h : lo ≤ hi) : lo ≤ clamp lo t hi ∧ clamp lo t hi ≤ hi := by
  unfold clamp
  split_ifs with h1 h2
  · exact ⟨le_rfl, h⟩
  · exact ⟨h, le_rfl⟩
  · push Not at h1 h2; exact ⟨h1, h2⟩

theorem clamp_id {lo hi t : K} (h1 : lo ≤ t) (h2 : t ≤ hi) : clamp lo t hi = t := by
  unfold clamp
  rw [if_neg (not_lt.mpr h1), if_neg (not_lt.mpr h2)]

/-! ## The order check -/

theorem orderedLoop_true {n : Nat} {x : Nat → K} (h : orderedLoop n x = true) (i : Nat) (hi : i + 2 < n) :
    ¬ (x (i + 1) ≤ x i ∧ x (i + 1) ≤ x (i + 2)) ∧ ¬ (x i ≤ x (i + 1) ∧ x (i + 2) ≤ x (i + 1)) := by
  unfold orderedLoop at h
  have key : ∀ k, loop (fun i r => if x (i + 1) ≤ x i ∧ x (i + 1) ≤ x (i + 2) then false
    else if x i ≤ x (i + 1) ∧ x (i + 2) ≤ x (i + 1) then false
    else if |x i - x (i + 1)| < dblEps then false else r) k true = true → ∀ i < k,
    ¬ (x (i + 1) ≤ x i ∧ x (i + 1) ≤ x (i + 2)) ∧ ¬ (x i ≤ x (i + 1) ∧ x (i + 2) ≤ x (i + 1)) := by
    intro k
    induction k with
    | zero => intro _ i hi; omega
    | succ k ih =>
      intro h i hi
      rw [loop_succ] at h
      split_ifs at h with h1 h2 h3
      rcases Nat.lt_or_ge i k with h4 | h4
      · exact ih h i h4
      · have : i = k := by omega
        subst this; exact ⟨h1, h2⟩
  exact key (n - 2) h i (by omega)

theorem orderedLoop_spaced {n : Nat} {x : Nat → K} (h : orderedLoop n x = true) (i : Nat) (hi : i + 2 < n) :
    dblEps ≤ |x i - x (i + 1)| := by
  unfold orderedLoop at h
  have key : ∀ k, loop (fun i r => if x (i + 1) ≤ x i ∧ x (i + 1) ≤ x (i + 2) then false
    else if x i ≤ x (i + 1) ∧ x (i + 2) ≤ x (i + 1) then false
    else if |x i - x (i + 1)| < dblEps then false else r) k true = true → ∀ i < k,
    dblEps ≤ |x i - x (i + 1)| := by
    intro k
    induction k with
    | zero => intro _ i hi; omega
    | succ k ih =>
      intro h i hi
      rw [loop_succ] at h
      split_ifs at h with h1 h2 h3
      rcases Nat.lt_or_ge i k with h4 | h4
      · exact ih h i h4
      · have : i = k := by omega
        subst this; exact not_lt.mp h3
  exact key (n - 2) h i (by omega)

/-- An accepted table starting upwards is increasing. -/
theorem asc_of_ordered {n : Nat} {x : Nat → K} (h : orderedLoop n x = true) (h01 : x 0 < x 1) : Asc x n := by
  intro i
  induction i with
  | zero => intro _; exact h01
  | succ i ih =>
    intro hi
    have h1 := ih (by omega)
    have h2 := (orderedLoop_true h i (by omega)).2
    exact not_le.mp (fun h3 => h2 ⟨h1.le, h3⟩)

/-- An accepted table starting downwards is decreasing. -/
theorem desc_of_ordered {n : Nat} {x : Nat → K} (h : orderedLoop n x = true) (h01 : x 1 < x 0) : Desc x n := by
  intro i
  induction i with
  | zero => intro _; exact h01
  | succ i ih =>
    intro hi
    have h1 := ih (by omega)
    have h2 := (orderedLoop_true h i (by omega)).1
    exact not_le.mp (fun h3 => h2 ⟨h1.le, h3⟩)

theorem Desc.rev {x : Nat → K} {n : Nat} (h : Desc x n) : Asc (fun i => x (n - i - 1)) n := by
  intro i hi
  have := h (n - i - 2) (by omega)
  have e1 : n - i - 2 + 1 = n - i - 1 := by omega
  have e2 : n - (i + 1) - 1 = n - i - 2 := by omega
  simp only [e2]; rw [← e1]; exact this

/-- Equal first points do not pass. -/
theorem ordered_ne {n : Nat} {x : Nat → K} (h : orderedLoop n x = true) (hn : 2 < n) : x 0 ≠ x 1 := by
  intro he
  obtain ⟨h1, h2⟩ := orderedLoop_true h 0 (by omega)
  simp only [Nat.zero_add] at h1 h2
  rcases le_total (x 1) (x 2) with h3 | h3
  · exact h1 ⟨he.ge, h3⟩
  · exact h2 ⟨he.le, h3⟩

/-! ## Cell search of the linear interpolator -/

theorem upFrom_spec (X : Nat → K) (t : K) (k c : Nat) :
    c ≤ upFrom X t k c ∧ upFrom X t k c ≤ c + k ∧ (∀ i, c ≤ i → i < upFrom X t k c → X i ≤ t) ∧
    (upFrom X t k c < c + k → t < X (upFrom X t k c)) := by
  induction k generalizing c with
  | zero => exact ⟨le_rfl, le_rfl, fun i h1 h2 => by simp only [upFrom] at h2; omega, fun h => by simp only [upFrom] at h; omega⟩
  | succ k ih =>
    unfold upFrom
    split_ifs with h
    · exact ⟨le_rfl, by omega, fun i h1 h2 => by omega, fun _ => h⟩
    · obtain ⟨h1, h2, h3, h4⟩ := ih (c + 1)
      refine ⟨by omega, by omega, fun i h5 h6 => ?_, fun h5 => h4 (by omega)⟩
      rcases Nat.lt_or_ge c i with h7 | h7
      · exact h3 i h7 h6
      · have : i = c := by omega
        subst this; exact not_lt.mp h

theorem downFrom_spec (X : Nat → K) (t : K) (c : Nat) :
    downFrom X t c ≤ c ∧ (0 < downFrom X t c → X (downFrom X t c) ≤ t) ∧
    (∀ i, downFrom X t c < i → i ≤ c → t < X i) := by
  induction c with
  | zero => exact ⟨le_rfl, fun h => by simp only [downFrom] at h; omega, fun i h1 h2 => by omega⟩
  | succ c ih =>
    unfold downFrom
    split_ifs with h
    · exact ⟨le_rfl, fun _ => h, fun i h1 h2 => by omega⟩
    · obtain ⟨h1, h2, h3⟩ := ih
      refine ⟨by omega, h2, fun i h4 h5 => ?_⟩
      rcases Nat.lt_or_ge c i with h6 | h6
      · have : i = c + 1 := by omega
        subst this; exact not_le.mp h
      · exact h3 i h4 h6

theorem selectCell_spec {X : Nat → K} {n c : Nat} {t : K} (h : Asc X n) (hc : c + 1 < n) (h0 : X 0 ≤ t)
    (h1 : t ≤ X (n - 1)) : ∃ k, selectCell t X n c = some k ∧ k + 1 < n ∧ X k ≤ t ∧ t ≤ X (k + 1) := by
  unfold selectCell
  rw [if_pos hc]
  by_cases hu : X (c + 1) ≤ t
  · rw [if_pos hu]
    obtain ⟨u1, u2, u3, u4⟩ := upFrom_spec X t (n - 1 - (c + 1)) (c + 1)
    generalize upFrom X t (n - 1 - (c + 1)) (c + 1) = r at *
    refine ⟨r - 1, rfl, by omega, ?_, ?_⟩
    · rcases Nat.lt_or_ge (c + 1) r with h2 | h2
      · exact u3 (r - 1) (by omega) (by omega)
      · have : r - 1 = c := by omega
        rw [this]; exact (h.le (by omega) (by omega : c + 1 < n)).trans hu
    · have e : r - 1 + 1 = r := by omega
      rw [e]
      rcases Nat.lt_or_ge r (n - 1) with h2 | h2
      · exact (u4 (by omega)).le
      · have : r = n - 1 := by omega
        rw [this]; exact h1
  · rw [if_neg hu]
    by_cases hd : t < X c ∧ 0 < c
    · rw [if_pos hd]
      obtain ⟨d1, d2, d3⟩ := downFrom_spec X t (c - 1)
      generalize downFrom X t (c - 1) = r at *
      refine ⟨r, rfl, by omega, ?_, ?_⟩
      · rcases Nat.eq_zero_or_pos r with h2 | h2
        · rw [h2]; exact h0
        · exact d2 h2
      · rcases Nat.lt_or_ge r (c - 1) with h2 | h2
        · exact (d3 (r + 1) (by omega) (by omega)).le
        · have : r + 1 = c := by omega
          rw [this]; exact hd.1.le
    · rw [if_neg hd]
      refine ⟨c, rfl, hc, ?_, (not_le.mp hu).le⟩
      rcases Nat.eq_zero_or_pos c with h2 | h2
      · rw [h2]; exact h0
      · exact not_lt.mp (fun h3 => hd ⟨h3, h2⟩)

/-! ## Cell search of the bilinear interpolator -/

theorem searchUp_spec {X : Nat → K} {t : K} (k i : Nat) (hlast : 0 < k → t ≤ X (i + k - 1)) (hk : 0 < k) :
    ∃ r, i ≤ r ∧ r < i + k ∧ searchUp X t k i = some (r - 1) ∧ t ≤ X r ∧ ∀ q, i ≤ q → q < r → X q < t := by
  induction k generalizing i with
  | zero => omega
  | succ k ih =>
    unfold searchUp
    by_cases h : t ≤ X i
    · exact ⟨i, le_rfl, by omega, by rw [if_pos h], h, fun q h1 h2 => by omega⟩
    · rw [if_neg h]
      rcases Nat.eq_zero_or_pos k with h0 | h0
      · subst h0
        exact absurd (hlast hk) h
      · have e : i + (k + 1) - 1 = i + 1 + k - 1 := by omega
        obtain ⟨r, r1, r2, r3, r4, r5⟩ := ih (i + 1) (fun _ => e ▸ hlast hk) h0
        refine ⟨r, by omega, by omega, r3, r4, fun q h1 h2 => ?_⟩
        rcases Nat.lt_or_ge i q with h3 | h3
        · exact r5 q h3 h2
        · have : q = i := by omega
          subst this; exact not_le.mp h

theorem searchDown_spec {X : Nat → K} {t : K} (k : Nat) (h0 : X 0 ≤ t) (hk : 0 < k) :
    ∃ r, r < k ∧ searchDown X t k = some r ∧ X r ≤ t ∧ ∀ q, r < q → q < k → t < X q := by
  induction k with
  | zero => omega
  | succ k ih =>
    unfold searchDown
    by_cases h : X k ≤ t
    · exact ⟨k, by omega, by rw [if_pos h], h, fun q h1 h2 => by omega⟩
    · rw [if_neg h]
      have hk0 : 0 < k := by
        rcases Nat.eq_zero_or_pos k with h2 | h2
        · subst h2; exact absurd h0 h
        · exact h2
      obtain ⟨r, r1, r2, r3, r4⟩ := ih hk0
      refine ⟨r, by omega, r2, r3, fun q h1 h2 => ?_⟩
      rcases Nat.lt_or_ge q k with h3 | h3
      · exact r4 q h1 h3
      · have : q = k := by omega
        subst this; exact not_le.mp h

theorem cell_spec {X : Nat → K} {n c : Nat} {t : K} (h : Asc X n) (hc : c + 1 < n) (h0 : X 0 ≤ t)
    (h1 : t ≤ X (n - 1)) : cell X n t c + 1 < n ∧ X (cell X n t c) ≤ t ∧ t ≤ X (cell X n t c + 1) := by
  unfold cell
  by_cases hu : X (c + 1) ≤ t
  · rw [if_pos hu]
    have e : c + 1 + (n - (c + 1)) - 1 = n - 1 := by omega
    obtain ⟨r, r1, r2, r3, r4, r5⟩ := searchUp_spec (X := X) (t := t) (n - (c + 1)) (c + 1)
      (fun _ => by rw [e]; exact h1) (by omega)
    rw [r3, Option.getD_some]
    have e2 : r - 1 + 1 = r := by omega
    refine ⟨by omega, ?_, by rw [e2]; exact r4⟩
    rcases Nat.lt_or_ge (c + 1) r with h2 | h2
    · exact (r5 (r - 1) (by omega) (by omega)).le
    · have : r - 1 = c := by omega
      rw [this]; exact (h c hc).le.trans hu
  · rw [if_neg hu]
    by_cases hd : t < X c
    · rw [if_pos hd]
      have hc0 : 0 < c := by
        rcases Nat.eq_zero_or_pos c with h2 | h2
        · subst h2; exact absurd h0 (not_le.mpr hd)
        · exact h2
      obtain ⟨r, r1, r2, r3, r4⟩ := searchDown_spec (X := X) (t := t) c h0 hc0
      rw [r2, Option.getD_some]
      refine ⟨by omega, r3, ?_⟩
      rcases Nat.lt_or_ge (r + 1) c with h2 | h2
      · exact (r4 (r + 1) (by omega) h2).le
      · have : r + 1 = c := by omega
        rw [this]; exact hd.le
    · rw [if_neg hd]
      exact ⟨hc, not_lt.mp hd, (not_le.mp hu).le⟩

end Gunns.Interp
