import Verif.Math.InterpBil
import Mathlib.Tactic.Linarith
import Mathlib.Algebra.Order.AbsoluteValue.Basic

/-!
# The reverse interpolator
-/

set_option linter.unusedSectionVars false

namespace Gunns.Interp

variable {K : Type _} [Field K] [LinearOrder K] [IsStrictOrderedRing K]

theorem isBetween_iff {a t b : K} : isBetween a t b = true ↔ Between a t b := by
  unfold isBetween Between
  split_ifs with h
  · rw [decide_eq_true_iff]
    constructor
    · exact Or.inl
    · rintro (h1 | h1)
      · exact h1
      · have e : a = b := le_antisymm h (h1.1.trans h1.2)
        subst e
        exact ⟨h1.1, h1.2⟩
  · rw [decide_eq_true_iff]
    push Not at h
    constructor
    · exact Or.inr
    · rintro (h1 | h1)
      · exact absurd (h1.1.trans h1.2) (not_le.mpr h)
      · exact h1

/-! ## The search -/

/-- The variables of the loop fit together. -/
structure RevOk (S Y : Nat → K) (n : Nat) (s : RevSt K) : Prop where
  idx : s.j + 1 < n
  tail : s.tail = S s.j
  head : s.head = S (s.j + 1)

/-- The remembered point is the one of the remembered distance. -/
def Remembers (S Y : Nat → K) (n : Nat) (z y d : K) : Prop := ∃ c < n, y = Y c ∧ d = |z - S c|

/-- The direction after a turn. -/
def dirOf (z : K) (s : RevSt K) : Int := if s.dir = 0 then (if |z - s.head| < |z - s.tail| then 1 else -1) else s.dir

/-- The next cell. -/
def nextCell (n : Nat) (d : Int) (j : Nat) : Nat :=
  if d = 1 then (if j + 2 < n then j + 1 else 0) else (if j = 0 then n - 2 else j - 1)

theorem revNext_spec {S Y : Nat → K} {n : Nat} {z : K} {s : RevSt K} (h : RevOk S Y n s)
    (hd : s.dir = 0 ∨ s.dir = 1 ∨ s.dir = -1) :
    RevOk S Y n (revNext S Y n z s) ∧ (revNext S Y n z s).dir = dirOf z s ∧
    (revNext S Y n z s).j = nextCell n (dirOf z s) s.j ∧
    (revNext S Y n z s).delta ≤ s.delta ∧ (revNext S Y n z s).delta ≤ |z - S s.j| ∧
    (revNext S Y n z s).delta ≤ |z - S (s.j + 1)| ∧
    (((revNext S Y n z s).delta = s.delta ∧ (revNext S Y n z s).y = s.y) ∨
      Remembers S Y n z (revNext S Y n z s).y (revNext S Y n z s).delta) := by
  obtain ⟨j, y, dir, delta, tail, head⟩ := s
  obtain ⟨h1, h2, h3⟩ := h
  simp only at h1 h2 h3 hd
  subst h2 h3
  -- the remembered point
  obtain ⟨y2, d2, e2, q1, q2, q3, q4⟩ : ∃ y2 d2,
      (let s1 := if |z - S (j + 1)| < delta then ({ j := j, y := Y (j + 1), dir := dir, delta := |z - S (j + 1)|, tail := S j, head := S (j + 1) } : RevSt K) else { j := j, y := y, dir := dir, delta := delta, tail := S j, head := S (j + 1) };
      if |z - S j| < s1.delta then { s1 with
        y := Y s1.j
        delta := |z - S j| } else s1) =
        ({ j := j, y := y2, dir := dir, delta := d2, tail := S j, head := S (j + 1) } : RevSt K) ∧
      d2 ≤ delta ∧ d2 ≤ |z - S j| ∧ d2 ≤ |z - S (j + 1)| ∧
      ((d2 = delta ∧ y2 = y) ∨ Remembers S Y n z y2 d2) := by
    by_cases a1 : |z - S (j + 1)| < delta
    · simp only [a1, if_true]
      by_cases a2 : |z - S j| < |z - S (j + 1)|
      · exact ⟨Y j, |z - S j|, by rw [if_pos a2], (a2.trans a1).le, le_rfl, a2.le, Or.inr ⟨j, by omega, rfl, rfl⟩⟩
      · exact ⟨Y (j + 1), |z - S (j + 1)|, by rw [if_neg a2], a1.le, not_lt.mp a2, le_rfl,
          Or.inr ⟨j + 1, by omega, rfl, rfl⟩⟩
    · simp only [a1, if_false]
      by_cases a2 : |z - S j| < delta
      · exact ⟨Y j, |z - S j|, by rw [if_pos a2], a2.le, le_rfl, (a2.trans_le (not_lt.mp a1)).le,
          Or.inr ⟨j, by omega, rfl, rfl⟩⟩
      · exact ⟨y, delta, by rw [if_neg a2], le_rfl, not_lt.mp a2, not_lt.mp a1, Or.inl ⟨rfl, rfl⟩⟩
  simp only at e2
  unfold revNext
  simp only [e2]
  have hdo : dirOf z ({ j := j, y := y, dir := dir, delta := delta, tail := S j, head := S (j + 1) } : RevSt K) = 1 ∨
      dirOf z ({ j := j, y := y, dir := dir, delta := delta, tail := S j, head := S (j + 1) } : RevSt K) = -1 := by
    unfold dirOf
    simp only
    split_ifs with a1 a2
    · exact Or.inl rfl
    · exact Or.inr rfl
    · exact hd.resolve_left a1
  have hde : dirOf z ({ j := j, y := y, dir := dir, delta := delta, tail := S j, head := S (j + 1) } : RevSt K) =
    if dir = 0 then (if |z - S (j + 1)| < |z - S j| then 1 else -1) else dir := rfl
  rw [hde] at hdo ⊢
  generalize (if dir = 0 then (if |z - S (j + 1)| < |z - S j| then (1 : Int) else -1) else dir) = d at hdo ⊢
  unfold nextCell
  rcases hdo with rfl | rfl
  · have b1 : ¬ ((j : Int) + 1 < 0) := by omega
    rw [if_neg b1]
    by_cases b2 : j + 2 < n
    · have b3 : ¬ ((n : Int) - 2 < (j : Int) + 1) := by omega
      have b4 : ((j : Int) + 1).toNat = j + 1 := by omega
      simp only [b2, b3, b4, if_false, if_true, Int.zero_lt_one]
      exact ⟨⟨by simp only; omega, rfl, rfl⟩, trivial, trivial, q1, q2, q3, q4⟩
    · have b3 : (n : Int) - 2 < (j : Int) + 1 := by omega
      simp only [b2, b3, if_false, if_true]
      exact ⟨⟨by simp only; omega, rfl, rfl⟩, trivial, trivial, q1, q2, q3, q4⟩
  · have b0 : ¬ ((-1 : Int) = 1) := by omega
    rw [if_neg b0]
    by_cases b2 : j = 0
    · simp only [b2, if_true]
      subst b2
      rw [if_pos (by omega : (((0 : Nat) : Int) + -1 < 0))]
      exact ⟨⟨by simp only; omega, rfl, rfl⟩, rfl, rfl, q1, q2, q3, q4⟩
    · have b3 : ¬ ((j : Int) + -1 < 0) := by omega
      have b4 : ¬ ((n : Int) - 2 < (j : Int) + -1) := by omega
      have b5 : ¬ ((0 : Int) < -1) := by omega
      have b6 : ((j : Int) + -1).toNat = j - 1 := by omega
      simp only [b2, b3, b4, b5, b6, if_false]
      refine ⟨⟨by simp only; omega, rfl, ?_⟩, trivial, trivial, q1, q2, q3, q4⟩
      simp only
      rw [show j - 1 + 1 = j by omega]

/-- The solution in cell `c`. -/
def cellSolution (S Y : Nat → K) (z : K) (c : Nat) : K :=
  if S (c + 1) ≠ S c then Y c + (Y (c + 1) - Y c) * (z - S c) / (S (c + 1) - S c) else 1 / 2 * (Y c + Y (c + 1))

/-- A search that found a cell. -/
def Found (S Y : Nat → K) (n : Nat) (z : K) (r : K × Nat) : Prop :=
  r.2 + 1 < n ∧ Between (S r.2) z (S (r.2 + 1)) ∧ r.1 = cellSolution S Y z r.2

/-- A search that found nothing in the cells `V`. -/
def Missed (S Y : Nat → K) (n : Nat) (z : K) (V : Nat → Prop) (y0 d0 : K) (r : K × Nat) : Prop :=
  r.2 + 1 < n ∧ (∀ c, V c → ¬ Between (S c) z (S (c + 1))) ∧
  ∃ d, d ≤ d0 ∧ (∀ c, V c → d ≤ |z - S c| ∧ d ≤ |z - S (c + 1)|) ∧
    ((d = d0 ∧ r.1 = y0) ∨ Remembers S Y n z r.1 d)

/-- The cells visited in `k` turns from `j`. -/
def visited (n : Nat) (d : Int) (j k c : Nat) : Prop :=
  c + 1 < n ∧ if d = 1 then (j ≤ c ∧ c < j + k) ∨ c + (n - 1) < j + k else (c ≤ j ∧ j < c + k) ∨ j + (n - 1) < c + k

theorem visited_step {n : Nat} {d : Int} {j k c : Nat} (hd : d = 1 ∨ d = -1) (hj : j + 1 < n)
    (h : visited n d j (k + 1) c) : c = j ∨ visited n d (nextCell n d j) k c := by
  unfold visited at *
  unfold nextCell
  rcases hd with rfl | rfl
  · simp only [if_true] at *
    by_cases b : j + 2 < n
    · simp only [b, if_true]; omega
    · simp only [b, if_false]; omega
  · have b0 : ¬ ((-1 : Int) = 1) := by omega
    simp only [b0, if_false] at *
    by_cases b : j = 0
    · simp only [b, if_true] at *; omega
    · simp only [b, if_false]; omega

theorem visited_all {n : Nat} {d : Int} {j c : Nat} (hj : j + 1 < n) (hc : c + 1 < n) : visited n d j (n - 1) c := by
  unfold visited
  split_ifs <;> omega

theorem revLoop_dir {S Y : Nat → K} {n : Nat} {z : K} (k : Nat) (s : RevSt K) (h : RevOk S Y n s)
    (hd : s.dir = 1 ∨ s.dir = -1) (hk : k ≤ n - 1) :
    Found S Y n z (revLoop S Y n z k s) ∨
      Missed S Y n z (visited n s.dir s.j k) s.y s.delta (revLoop S Y n z k s) := by
  induction k generalizing s with
  | zero =>
    right
    refine ⟨h.idx, fun c hc => ?_, s.delta, le_rfl, fun c hc => ?_, Or.inl ⟨rfl, rfl⟩⟩
    all_goals
      exfalso
      unfold visited at hc
      have := h.idx
      split_ifs at hc <;> omega
  | succ k ih =>
    unfold revLoop
    by_cases hb : isBetween s.tail z s.head = true
    · rw [if_pos hb]
      left
      rw [isBetween_iff, h.tail, h.head] at hb
      refine ⟨h.idx, hb, ?_⟩
      unfold cellSolution
      simp only [h.tail, h.head]
    · rw [if_neg hb]
      rw [isBetween_iff, h.tail, h.head] at hb
      obtain ⟨n1, n2, n3, n4, n5, n6, n7⟩ := revNext_spec (z := z) h (Or.inr hd)
      have hdd : dirOf z s = s.dir := by
        unfold dirOf
        rw [if_neg]
        rcases hd with hd | hd <;> rw [hd] <;> omega
      rw [hdd] at n2 n3
      rcases ih _ n1 (by rw [n2]; exact hd) (by omega) with hf | hm
      · exact Or.inl hf
      · right
        rw [n2, n3] at hm
        obtain ⟨m1, m2, d, m3, m4, m5⟩ := hm
        refine ⟨m1, fun c hc => ?_, d, m3.trans n4, fun c hc => ?_, ?_⟩
        · rcases visited_step hd h.idx hc with rfl | hv
          · exact hb
          · exact m2 c hv
        · rcases visited_step hd h.idx hc with rfl | hv
          · exact ⟨m3.trans n5, m3.trans n6⟩
          · exact m4 c hv
        · rcases m5 with ⟨m5, m6⟩ | m5
          · rcases n7 with ⟨n7, n8⟩ | n7
            · exact Or.inl ⟨m5.trans n7, m6.trans n8⟩
            · right; rw [m5, m6]; exact n7
          · exact Or.inr m5

/-- The whole search visits all cells. -/
theorem revLoop_spec {S Y : Nat → K} {n : Nat} {z : K} (s : RevSt K) (h : RevOk S Y n s) (hd : s.dir = 0) :
    Found S Y n z (revLoop S Y n z (n - 1) s) ∨
      Missed S Y n z (fun c => c + 1 < n) s.y s.delta (revLoop S Y n z (n - 1) s) := by
  have hj := h.idx
  obtain ⟨k, hk⟩ : ∃ k, n - 1 = k + 1 := ⟨n - 2, by omega⟩
  rw [hk]
  unfold revLoop
  by_cases hb : isBetween s.tail z s.head = true
  · rw [if_pos hb]
    left
    rw [isBetween_iff, h.tail, h.head] at hb
    refine ⟨h.idx, hb, ?_⟩
    unfold cellSolution
    simp only [h.tail, h.head]
  · rw [if_neg hb]
    rw [isBetween_iff, h.tail, h.head] at hb
    obtain ⟨n1, n2, n3, n4, n5, n6, n7⟩ := revNext_spec (z := z) h (Or.inl hd)
    have hdd : dirOf z s = 1 ∨ dirOf z s = -1 := by
      unfold dirOf
      rw [if_pos hd]
      split_ifs
      · exact Or.inl rfl
      · exact Or.inr rfl
    rcases revLoop_dir (z := z) k _ n1 (by rw [n2]; exact hdd) (by omega) with hf | hm
    · exact Or.inl hf
    · right
      rw [n2, n3] at hm
      obtain ⟨m1, m2, d, m3, m4, m5⟩ := hm
      have hv : ∀ c, c + 1 < n → c = s.j ∨ visited n (dirOf z s) (nextCell n (dirOf z s) s.j) k c := fun c hc =>
        visited_step hdd hj (by rw [← hk]; exact visited_all hj hc)
      refine ⟨m1, fun c hc => ?_, d, m3.trans n4, fun c hc => ?_, ?_⟩
      · rcases hv c hc with rfl | hv
        · exact hb
        · exact m2 c hv
      · rcases hv c hc with rfl | hv
        · exact ⟨m3.trans n5, m3.trans n6⟩
        · exact m4 c hv
      · rcases m5 with ⟨m5, m6⟩ | m5
        · rcases n7 with ⟨n7, n8⟩ | n7
          · exact Or.inl ⟨m5.trans n7, m6.trans n8⟩
          · right; rw [m5, m6]; exact n7
        · exact Or.inr m5

/-! ## The result in terms of the section -/

/-- The solution in a cell is in the cell, and the section has the value there. -/
theorem cellSolution_spec {S Y : Nat → K} {z : K} {c : Nat} (hy : Y c < Y (c + 1)) (hb : Between (S c) z (S (c + 1))) :
    Y c ≤ cellSolution S Y z c ∧ cellSolution S Y z c ≤ Y (c + 1) ∧
    line (Y c) (Y (c + 1)) (S c) (S (c + 1)) (cellSolution S Y z c) = z := by
  unfold cellSolution
  have hy' : Y (c + 1) - Y c ≠ 0 := (sub_pos.mpr hy).ne'
  by_cases he : S (c + 1) = S c
  · rw [if_neg (not_not.mpr he)]
    refine ⟨by linarith, by linarith, ?_⟩
    unfold line
    rw [he] at hb ⊢
    have : z = S c := by
      rcases hb with hb | hb <;> exact le_antisymm hb.2 hb.1
    rw [this]; ring
  · rw [if_pos he]
    have hs : S (c + 1) - S c ≠ 0 := sub_ne_zero.mpr he
    have e : Y c + (Y (c + 1) - Y c) * (z - S c) / (S (c + 1) - S c) = line (S c) (S (c + 1)) (Y c) (Y (c + 1)) z := by
      unfold line; rw [mul_div_assoc]
    rw [e]
    have hm := line_mem (Ne.symm he) hb le_rfl hy.le hy.le le_rfl
    refine ⟨hm.1, hm.2, ?_⟩
    unfold line
    field_simp
    ring

/-- Without a cell around `z` the whole section is on one side. -/
theorem one_side {S : Nat → K} {n : Nat} {z : K} (h1 : 1 < n) (h : ∀ c, c + 1 < n → ¬ Between (S c) z (S (c + 1))) :
    (∀ c < n, S c < z) ∨ (∀ c < n, z < S c) := by
  have h0 : S 0 < z ∨ z < S 0 := by
    rcases lt_trichotomy (S 0) z with a | a | a
    · exact Or.inl a
    · exfalso
      apply h 0 (by omega)
      rcases le_total (S 0) (S 1) with b | b
      · exact Or.inl ⟨a.le, a ▸ b⟩
      · exact Or.inr ⟨a ▸ b, a.ge⟩
    · exact Or.inr a
  rcases h0 with h0 | h0
  · left
    intro c
    induction c with
    | zero => intro _; exact h0
    | succ c ih =>
      intro hc
      have := ih (by omega)
      by_contra h2
      exact h c hc (Or.inl ⟨this.le, not_lt.mp h2⟩)
  · right
    intro c
    induction c with
    | zero => intro _; exact h0
    | succ c ih =>
      intro hc
      have := ih (by omega)
      by_contra h2
      exact h c hc (Or.inr ⟨not_lt.mp h2, this.le⟩)

/-- A search over a section of an increasing table ends at a point where the section is closest to `z`. -/
theorem revLoop_best {S Y : Nat → K} {n : Nat} {z : K} (s : RevSt K) (h : RevOk S Y n s) (hd : s.dir = 0)
    (ha : Asc Y n) (hbig : ∃ c < n, |z - S c| < s.delta) :
    (revLoop S Y n z (n - 1) s).2 + 1 < n ∧
    ∃ v, IsInterp Y S n (revLoop S Y n z (n - 1) s).1 v ∧ ∀ y' v', IsInterp Y S n y' v' → |z - v| ≤ |z - v'| := by
  have hj := h.idx
  rcases revLoop_spec (z := z) s h hd with hf | hm
  · obtain ⟨f1, f2, f3⟩ := hf
    generalize revLoop S Y n z (n - 1) s = r at *
    obtain ⟨c1, c2, c3⟩ := cellSolution_spec (ha r.2 f1) f2
    refine ⟨f1, z, ?_, fun y' v' _ => by rw [sub_self, abs_zero]; exact abs_nonneg _⟩
    rw [f3]
    exact isInterp_of_cell ha f1 c1 c2 c3.symm
  · obtain ⟨m1, m2, d, m3, m4, m5⟩ := hm
    generalize revLoop S Y n z (n - 1) s = r at *
    have hmin : ∀ c < n, d ≤ |z - S c| := fun c hc => by
      rcases Nat.lt_or_ge (c + 1) n with h1 | h1
      · exact (m4 c h1).1
      · obtain ⟨e, rfl⟩ : ∃ e, c = e + 1 := ⟨c - 1, by omega⟩
        exact (m4 e hc).2
    have m5 : Remembers S Y n z r.1 d := by
      rcases m5 with ⟨m5, _⟩ | m5
      · obtain ⟨c, hc, hlt⟩ := hbig
        exact absurd (hmin c hc) (by rw [m5]; exact not_le.mpr hlt)
      · exact m5
    obtain ⟨c, hc, ey, ed⟩ := m5
    have hI : IsInterp Y S n r.1 (S c) := by
      rw [ey]
      rcases Nat.lt_or_ge (c + 1) n with h1 | h1
      · exact isInterp_of_cell ha h1 le_rfl (ha c h1).le (by rw [line_left])
      · obtain ⟨e, rfl⟩ : ∃ e, c = e + 1 := ⟨c - 1, by omega⟩
        exact isInterp_of_cell ha hc (ha e hc).le le_rfl (by rw [line_right (ha e hc).ne])
    refine ⟨m1, S c, hI, fun y' v' h' => ?_⟩
    rw [← ed]
    rcases one_side (by omega) m2 with hs | hs
    · have hz : ∀ k < n, S k ≤ z - d := fun k hk => by
        have := hmin k hk
        rw [abs_of_pos (sub_pos.mpr (hs k hk))] at this
        linarith
      obtain ⟨⟨k, hk, hb⟩, h'⟩ := h'
      have := (line_mem (ha k hk).ne hb (lo := min (S k) (S (k + 1))) (min_le_left _ _) (min_le_right _ _) (hz k (by omega)) (hz (k + 1) hk)).2
      rw [← h' k hk hb] at this
      exact le_trans (by linarith) (le_abs_self _)
    · have hz : ∀ k < n, z + d ≤ S k := fun k hk => by
        have := hmin k hk
        rw [abs_of_neg (sub_neg.mpr (hs k hk))] at this
        linarith
      obtain ⟨⟨k, hk, hb⟩, h'⟩ := h'
      have := (line_mem (ha k hk).ne hb (hi := max (S k) (S (k + 1))) (hz k (by omega)) (hz (k + 1) hk) (le_max_left _ _) (le_max_right _ _)).1
      rw [← h' k hk hb] at this
      exact le_trans (by linarith) (neg_le_abs _)

/-- Interpolation in the table is interpolation in the section through the first argument. -/
theorem isBiInterp_section {x y : Nat → K} {z : Nat → Nat → K} {m n i : Nat} {u t v : K} (hx : Asc x m)
    (hi : i + 1 < m) (i1 : x i ≤ u) (i2 : u ≤ x (i + 1)) :
    IsBiInterp x y z m n u t v ↔
      IsInterp y (fun j => line (x i) (x (i + 1)) (z i j) (z (i + 1) j) u) n t v := by
  constructor
  · rintro ⟨_, hy, h⟩
    exact ⟨hy, fun l hl hb => h i l hi hl (Or.inl ⟨i1, i2⟩) hb⟩
  · rintro ⟨hy, h⟩
    refine ⟨⟨i, hi, Or.inl ⟨i1, i2⟩⟩, hy, fun k l hk hl bk bl => ?_⟩
    have bk' := between_asc (hx k hk) bk
    have e : ∀ j, line (x k) (x (k + 1)) (z k j) (z (k + 1) j) u = line (x i) (x (i + 1)) (z i j) (z (i + 1) j) u :=
      fun j => line_cell (z := fun i => z i j) hx hk hi bk'.1 bk'.2 i1 i2
    rw [e, e]
    exact h l hl bl

/-- Values closest to `w` among those the table takes at `u`. -/
def Closest (x y : Nat → K) (z : Nat → Nat → K) (m n : Nat) (u w t : K) : Prop :=
  ∃ v, IsBiInterp x y z m n u t v ∧ ∀ t' v', IsBiInterp x y z m n u t' v' → |w - v| ≤ |w - v'|

theorem evaluateReverse_spec {x y : Nat → K} {z : Nat → Nat → K} {m n : Nat} {lo hi lo2 hi2 u w b : K} {s : Bil K}
    (h : BiHolds x y z m n lo hi lo2 hi2 s) (u0 : lo ≤ u) (u1 : u ≤ hi) (hb : b + b < (10 : K) ^ 16)
    (hz : ∀ i < m, ∀ j < n, -b ≤ s.z i j ∧ s.z i j ≤ b) (hw : -b ≤ w ∧ w ≤ b) :
    ∃ t s1, s.evaluateReverse u w = some (t, s1) ∧ BiHolds x y z m n lo hi lo2 hi2 s1 ∧ s1.z = s.z ∧
      Closest x y z m n u w t := by
  obtain ⟨i1, i2, i3⟩ := cell_spec h.ascx h.idi (h.coverx0.trans u0) (u1.trans h.coverx1)
  unfold Bil.evaluateReverse
  rw [if_pos ⟨h.alloc, by rw [h.lenm]; exact h.idi, by rw [h.lenn]; exact h.idj⟩]
  simp only [h.lenm, h.lenn]
  generalize cell s.x m u s.i = i at *
  have hS : (fun j => s.z i j + (u - s.x i) / (s.x (i + 1) - s.x i) * (s.z (i + 1) j - s.z i j)) =
      fun j => line (s.x i) (s.x (i + 1)) (s.z i j) (s.z (i + 1) j) u := by
    funext j
    unfold line
    ring
  have hbest := revLoop_best (z := w) (S := fun j => line (s.x i) (s.x (i + 1)) (s.z i j) (s.z (i + 1) j) u) (Y := s.y)
    (n := n) { j := s.j, y := s.y s.j, dir := 0, delta := (10 : K) ^ 16, tail := line (s.x i) (s.x (i + 1)) (s.z i s.j) (s.z (i + 1) s.j) u, head := line (s.x i) (s.x (i + 1)) (s.z i (s.j + 1)) (s.z (i + 1) (s.j + 1)) u }
    ⟨h.idj, rfl, rfl⟩ rfl h.ascy (by
      refine ⟨0, by have := h.idj; omega, ?_⟩
      have hn : 0 < n := by have := h.idj; omega
      have := line_mem (h.ascx i i1).ne (Or.inl ⟨i2, i3⟩) (hz i (by omega) 0 hn).1 (hz (i + 1) i1 0 hn).1
        (hz i (by omega) 0 hn).2 (hz (i + 1) i1 0 hn).2
      simp only
      rw [abs_lt]
      constructor <;> linarith)
  have hS' := fun j => congrFun hS j
  simp only [hS']
  refine ⟨_, _, rfl, ?_, rfl, ?_⟩
  · exact ⟨h.alloc, rfl, rfl, h.ascx, h.ascy, h.coverx0, h.coverx1, h.rangex, h.minX, h.maxX, h.minY, h.maxY,
      i1, hbest.1, h.stored, h.same⟩
  · obtain ⟨v, v1, v2⟩ := hbest.2
    refine ⟨v, (h.same _ _ _).mp ((isBiInterp_section h.ascx i1 i2 i3).mpr v1), fun t' v' h' => ?_⟩
    exact v2 t' v' ((isBiInterp_section h.ascx i1 i2 i3).mp ((h.same _ _ _).mpr h'))

/-! ## The range of the values -/

/-- The entries scanned before entry `j` of row `i`. -/
def Before (m n i j a b : Nat) : Prop := a < m ∧ b < n ∧ (a < i ∨ (a = i ∧ b < j))

/-- What the scan knows. -/
structure Scanned (z : Nat → Nat → K) (V : Nat → Nat → Prop) (r : K × K) : Prop where
  low : ∀ a b, V a b → r.1 ≤ z a b
  high : ∀ a b, V a b → (a ≠ 0 ∨ b ≠ 0) → z a b ≤ r.2 ∨ z a b < z 0 0
  lowAt : r.1 = (10 : K) ^ 16 ∨ ∃ a b, V a b ∧ r.1 = z a b
  highAt : r.2 = -(10 : K) ^ 16 ∨ ∃ a b, V a b ∧ r.2 = z a b

theorem scan_step {z : Nat → Nat → K} {m n i j : Nat} {r : K × K} (hi : i < m) (hj : j < n)
    (h : Scanned z (Before m n i j) r) :
    Scanned z (Before m n i (j + 1))
      (if z i j < r.1 then (z i j, r.2) else if r.2 < z i j then (r.1, z i j) else r) := by
  have hsplit : ∀ a b, Before m n i (j + 1) a b → Before m n i j a b ∨ (a = i ∧ b = j) := fun a b hv => by
    unfold Before at *; omega
  have hmono : ∀ a b, Before m n i j a b → Before m n i (j + 1) a b := fun a b hv => by
    unfold Before at *; omega
  have hself : Before m n i (j + 1) i j := by unfold Before; omega
  have hzero : i ≠ 0 ∨ j ≠ 0 → Before m n i j 0 0 := fun h => by unfold Before; omega
  split_ifs with h1 h2
  · refine ⟨fun a b hv => ?_, fun a b hv hne => ?_, Or.inr ⟨i, j, hself, rfl⟩, ?_⟩
    · rcases hsplit a b hv with hv | ⟨rfl, rfl⟩
      · exact h1.le.trans (h.low a b hv)
      · exact le_rfl
    · rcases hsplit a b hv with hv | ⟨rfl, rfl⟩
      · exact h.high a b hv hne
      · exact Or.inr (h1.trans_le (h.low 0 0 (hzero hne)))
    · rcases h.highAt with h3 | ⟨a, b, h3, h4⟩
      · exact Or.inl h3
      · exact Or.inr ⟨a, b, hmono a b h3, h4⟩
  · refine ⟨fun a b hv => ?_, fun a b hv hne => ?_, ?_, Or.inr ⟨i, j, hself, rfl⟩⟩
    · rcases hsplit a b hv with hv | ⟨rfl, rfl⟩
      · exact h.low a b hv
      · exact not_lt.mp h1
    · rcases hsplit a b hv with hv | ⟨rfl, rfl⟩
      · rcases h.high a b hv hne with h3 | h3
        · exact Or.inl (h3.trans h2.le)
        · exact Or.inr h3
      · exact Or.inl le_rfl
    · rcases h.lowAt with h3 | ⟨a, b, h3, h4⟩
      · exact Or.inl h3
      · exact Or.inr ⟨a, b, hmono a b h3, h4⟩
  · refine ⟨fun a b hv => ?_, fun a b hv hne => ?_, ?_, ?_⟩
    · rcases hsplit a b hv with hv | ⟨rfl, rfl⟩
      · exact h.low a b hv
      · exact not_lt.mp h1
    · rcases hsplit a b hv with hv | ⟨rfl, rfl⟩
      · exact h.high a b hv hne
      · exact Or.inl (not_lt.mp h2)
    · rcases h.lowAt with h3 | ⟨a, b, h3, h4⟩
      · exact Or.inl h3
      · exact Or.inr ⟨a, b, hmono a b h3, h4⟩
    · rcases h.highAt with h3 | ⟨a, b, h3, h4⟩
      · exact Or.inl h3
      · exact Or.inr ⟨a, b, hmono a b h3, h4⟩

theorem Scanned.congr {z : Nat → Nat → K} {V W : Nat → Nat → Prop} {r : K × K} (h : Scanned z V r)
    (e : ∀ a b, V a b ↔ W a b) : Scanned z W r :=
  ⟨fun a b hw => h.low a b ((e a b).mpr hw), fun a b hw => h.high a b ((e a b).mpr hw),
    h.lowAt.imp id (fun ⟨a, b, h1, h2⟩ => ⟨a, b, (e a b).mp h1, h2⟩),
    h.highAt.imp id (fun ⟨a, b, h1, h2⟩ => ⟨a, b, (e a b).mp h1, h2⟩)⟩

theorem scan_spec (z : Nat → Nat → K) (m n : Nat) :
    Scanned z (fun a b => a < m ∧ b < n) (loop (fun i r => loop (fun j (r : K × K) =>
      if z i j < r.1 then (z i j, r.2) else if r.2 < z i j then (r.1, z i j) else r) n r) m
    ((10 : K) ^ 16, -(10 : K) ^ 16)) := by
  have key := loop_inv (f := fun i r => loop (fun j (r : K × K) =>
      if z i j < r.1 then (z i j, r.2) else if r.2 < z i j then (r.1, z i j) else r) n r)
    (s := ((10 : K) ^ 16, -(10 : K) ^ 16)) (fun i r => Scanned z (Before m n i 0) r) m
    ⟨fun a b hv => by unfold Before at hv; omega, fun a b hv => by unfold Before at hv; omega, Or.inl rfl, Or.inl rfl⟩
    (fun i hi r hr => by
      have inner := loop_inv (f := fun j (r : K × K) =>
        if z i j < r.1 then (z i j, r.2) else if r.2 < z i j then (r.1, z i j) else r) (s := r)
        (fun j r => Scanned z (Before m n i j) r) n hr (fun j hj r hr => scan_step hi hj hr)
      exact inner.congr (fun a b => by unfold Before; omega))
  exact key.congr (fun a b => by unfold Before; omega)

/-- If another entry is at least the first one, the scan finds the least and the greatest entry. -/
theorem initReverse_range {s : Bil K} (hz : ∀ i < s.m, ∀ j < s.n, -(10 : K) ^ 16 < s.z i j ∧ s.z i j < (10 : K) ^ 16)
    (hf : ∃ i < s.m, ∃ j < s.n, (i ≠ 0 ∨ j ≠ 0) ∧ s.z 0 0 ≤ s.z i j) :
    (∀ i < s.m, ∀ j < s.n, s.initReverse.minY ≤ s.z i j ∧ s.z i j ≤ s.initReverse.maxY) ∧
    (∃ i < s.m, ∃ j < s.n, s.initReverse.minY = s.z i j) ∧ (∃ i < s.m, ∃ j < s.n, s.initReverse.maxY = s.z i j) := by
  have h := scan_spec s.z s.m s.n
  unfold Bil.initReverse
  simp only
  generalize loop (fun i r => loop (fun j (r : K × K) =>
      if s.z i j < r.1 then (s.z i j, r.2) else if r.2 < s.z i j then (r.1, s.z i j) else r) s.n r) s.m
    ((10 : K) ^ 16, -(10 : K) ^ 16) = r at h ⊢
  obtain ⟨i0, hi0, j0, hj0, hne, hle⟩ := hf
  have h0 : s.z 0 0 ≤ r.2 := by
    rcases h.high i0 j0 ⟨hi0, hj0⟩ hne with h1 | h1
    · exact hle.trans h1
    · exact absurd hle (not_le.mpr h1)
  refine ⟨fun i hi j hj => ⟨h.low i j ⟨hi, hj⟩, ?_⟩, ?_, ?_⟩
  · by_cases hc : i ≠ 0 ∨ j ≠ 0
    · rcases h.high i j ⟨hi, hj⟩ hc with h1 | h1
      · exact h1
      · exact h1.le.trans h0
    · push Not at hc
      rw [hc.1, hc.2]; exact h0
  · rcases h.lowAt with h1 | ⟨a, b, h1, h2⟩
    · have := h.low 0 0 ⟨by omega, by omega⟩
      rw [h1] at this
      exact absurd (hz 0 (by omega) 0 (by omega)).2 (not_lt.mpr this)
    · exact ⟨a, h1.1, b, h1.2, h2⟩
  · rcases h.highAt with h1 | ⟨a, b, h1, h2⟩
    · rw [h1] at h0
      exact absurd (hz 0 (by omega) 0 (by omega)).1 (not_lt.mpr h0)
    · exact ⟨a, h1.1, b, h1.2, h2⟩

/-- Moving the value into the range of the table does not change what is closest. -/
theorem closest_clamp {x y : Nat → K} {z : Nat → Nat → K} {m n : Nat} {u w t mn mx : K}
    (hr : ∀ t v, IsBiInterp x y z m n u t v → mn ≤ v ∧ v ≤ mx) (h : Closest x y z m n u (clamp mn w mx) t) :
    Closest x y z m n u w t := by
  obtain ⟨v, v1, v2⟩ := h
  refine ⟨v, v1, fun t' v' h' => ?_⟩
  have b := hr t v v1
  have b' := hr t' v' h'
  have := v2 t' v' h'
  unfold clamp at this
  split_ifs at this with c1 c2
  · rw [abs_of_nonpos (by linarith), abs_of_nonpos (by linarith)] at this
    rw [abs_of_nonpos (by linarith), abs_of_nonpos (by linarith)]
    linarith
  · rw [abs_of_nonneg (by linarith), abs_of_nonneg (by linarith)] at this
    rw [abs_of_nonneg (by linarith), abs_of_nonneg (by linarith)]
    linarith
  · exact this

end Gunns.Interp
