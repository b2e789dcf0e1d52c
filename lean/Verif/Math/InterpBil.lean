import Verif.Math.InterpLin

/-!
# The bilinear interpolator
-/

set_option linter.unusedSectionVars false

namespace Gunns.Interp

variable {K : Type _} [Field K] [LinearOrder K] [IsStrictOrderedRing K]

/-! ## About the specification -/

theorem isBiInterp_of_cell {x y : Nat → K} {z : Nat → Nat → K} {m n k l : Nat} {s t v : K} (hx : Asc x m)
    (hy : Asc y n) (hk : k + 1 < m) (hl : l + 1 < n) (k1 : x k ≤ s) (k2 : s ≤ x (k + 1)) (l1 : y l ≤ t)
    (l2 : t ≤ y (l + 1))
    (hv : v = line (y l) (y (l + 1)) (line (x k) (x (k + 1)) (z k l) (z (k + 1) l) s)
      (line (x k) (x (k + 1)) (z k (l + 1)) (z (k + 1) (l + 1)) s) t) : IsBiInterp x y z m n s t v := by
  refine ⟨⟨k, hk, Or.inl ⟨k1, k2⟩⟩, ⟨l, hl, Or.inl ⟨l1, l2⟩⟩, fun k' l' hk' hl' bk bl => ?_⟩
  have bk' := between_asc (hx k' hk') bk
  have bl' := between_asc (hy l' hl') bl
  have e : ∀ j, line (x k') (x (k' + 1)) (z k' j) (z (k' + 1) j) s = line (x k) (x (k + 1)) (z k j) (z (k + 1) j) s :=
    fun j => line_cell (z := fun i => z i j) hx hk' hk bk'.1 bk'.2 k1 k2
  rw [e, e, hv]
  exact line_cell (z := fun j => line (x k) (x (k + 1)) (z k j) (z (k + 1) j) s) hy hl hl' l1 l2 bl'.1 bl'.2

theorem isBiInterp_revx {x y : Nat → K} {z : Nat → Nat → K} {m n : Nat} {s t v : K}
    (hne : ∀ i, i + 1 < m → x i ≠ x (i + 1))
    (h : IsBiInterp (fun i => x (m - i - 1)) y (fun i => z (m - i - 1)) m n s t v) : IsBiInterp x y z m n s t v := by
  obtain ⟨⟨k, hk, hb⟩, hy, h⟩ := h
  refine ⟨⟨m - k - 2, by omega, ?_⟩, hy, fun p q hp hq bp bq => ?_⟩
  · have e1 : m - k - 2 + 1 = m - k - 1 := by omega
    have e2 : m - (k + 1) - 1 = m - k - 2 := by omega
    simp only [e2] at hb
    rw [e1]; exact hb.symm
  · have e1 : m - (m - p - 2) - 1 = p + 1 := by omega
    have e2 : m - (m - p - 2 + 1) - 1 = p := by omega
    have := h (m - p - 2) q (by omega) hq (by simp only [e1, e2]; exact bp.symm) bq
    simp only [e1, e2] at this
    rw [this, line_symm (hne p hp).symm, line_symm (fb := z p (q + 1)) (hne p hp).symm]

theorem isBiInterp_revy {x y : Nat → K} {z : Nat → Nat → K} {m n : Nat} {s t v : K}
    (hne : ∀ i, i + 1 < n → y i ≠ y (i + 1))
    (h : IsBiInterp x (fun i => y (n - i - 1)) (fun i j => z i (n - j - 1)) m n s t v) :
    IsBiInterp x y z m n s t v := by
  obtain ⟨hx, ⟨k, hk, hb⟩, h⟩ := h
  refine ⟨hx, ⟨n - k - 2, by omega, ?_⟩, fun p q hp hq bp bq => ?_⟩
  · have e1 : n - k - 2 + 1 = n - k - 1 := by omega
    have e2 : n - (k + 1) - 1 = n - k - 2 := by omega
    simp only [e2] at hb
    rw [e1]; exact hb.symm
  · have e1 : n - (n - q - 2) - 1 = q + 1 := by omega
    have e2 : n - (n - q - 2 + 1) - 1 = q := by omega
    have := h p (n - q - 2) hp (by omega) bp (by simp only [e1, e2]; exact bq.symm)
    simp only [e1, e2] at this
    rw [this, line_symm (hne q hq).symm]

theorem isBiInterp_congr {x x' y y' : Nat → K} {z z' : Nat → Nat → K} {m n : Nat} {s t v : K}
    (hx : ∀ i < m, x i = x' i) (hy : ∀ j < n, y j = y' j) (hz : ∀ i < m, ∀ j < n, z i j = z' i j)
    (h : IsBiInterp x y z m n s t v) : IsBiInterp x' y' z' m n s t v := by
  obtain ⟨⟨k, hk, hb⟩, ⟨l, hl, hc⟩, h⟩ := h
  refine ⟨⟨k, hk, ?_⟩, ⟨l, hl, ?_⟩, fun p q hp hq bp bq => ?_⟩
  · rw [← hx k (by omega), ← hx (k + 1) hk]; exact hb
  · rw [← hy l (by omega), ← hy (l + 1) hl]; exact hc
  · have := h p q hp hq (by rw [hx p (by omega), hx (p + 1) hp]; exact bp)
      (by rw [hy q (by omega), hy (q + 1) hq]; exact bq)
    rw [this, hx p (by omega), hx (p + 1) hp, hy q (by omega), hy (q + 1) hq, hz p (by omega) q (by omega),
      hz (p + 1) hp q (by omega), hz p (by omega) (q + 1) hq, hz (p + 1) hp (q + 1) hq]

theorem IsBiInterp.unique {x y : Nat → K} {z : Nat → Nat → K} {m n : Nat} {s t v w : K}
    (h1 : IsBiInterp x y z m n s t v) (h2 : IsBiInterp x y z m n s t w) : v = w := by
  obtain ⟨⟨k, hk, hb⟩, ⟨l, hl, hc⟩, h⟩ := h1
  rw [h k l hk hl hb hc, h2.2.2 k l hk hl hb hc]

/-! ## Reversal of a table -/

theorem reverse_fst {α : Type _} (n : Nat) (x : Nat → K) (rows : Nat → α) (i : Nat) (hi : i < n) :
    (reverse n x rows).1 i = x (n - i - 1) := by
  unfold reverse
  have key := loop_inv (f := fun i (s : (Nat → K) × (Nat → α)) =>
      (put (put s.1 i (x (n - i - 1))) (n - i - 1) (x i), swapRows s.2 i (n - i - 1)))
    (s := ((fun _ => 0 : Nat → K), rows))
    (fun k s => ∀ i, i < n → (i < k ∨ n - i - 1 < k) → s.1 i = x (n - i - 1)) (n / 2 + 1)
    (fun i _ h => by omega)
    (fun k hk s hs i hi h => by
      simp only [put]
      by_cases h1 : i = n - k - 1
      · rw [if_pos h1]
        have : n - i - 1 = k := by omega
        rw [this]
      · rw [if_neg h1]
        by_cases h2 : i = k
        · rw [if_pos h2, h2]
        · rw [if_neg h2]
          exact hs i hi (by omega))
  exact key i hi (by omega)

theorem reverse_snd {α : Type _} (n : Nat) (x : Nat → K) (rows : Nat → α) (hn : 2 ≤ n) (i : Nat) (hi : i < n) :
    (reverse n x rows).2 i = if n % 2 = 0 ∧ (i = n / 2 ∨ i + 1 = n / 2) then rows i else rows (n - i - 1) := by
  unfold reverse
  rw [loop_succ]
  have key := loop_inv (f := fun i (s : (Nat → K) × (Nat → α)) =>
      (put (put s.1 i (x (n - i - 1))) (n - i - 1) (x i), swapRows s.2 i (n - i - 1)))
    (s := ((fun _ => 0 : Nat → K), rows))
    (fun k s => ∀ i, i < n → s.2 i = if i < k ∨ n - i - 1 < k then rows (n - i - 1) else rows i) (n / 2)
    (fun i _ => by rw [if_neg (by omega)])
    (fun k hk s hs i hi => by
      simp only [swapRows]
      by_cases h1 : i = k
      · subst h1
        rw [if_pos rfl, if_pos (by omega), hs _ (by omega), if_neg (by omega)]
      · rw [if_neg h1]
        by_cases h2 : i = n - k - 1
        · have e : n - i - 1 = k := by omega
          rw [if_pos h2, if_pos (by omega), hs _ (by omega), if_neg (by omega), e]
        · rw [if_neg h2, hs i hi]
          by_cases h3 : i < k ∨ n - i - 1 < k
          · rw [if_pos h3, if_pos (by omega)]
          · rw [if_neg h3, if_neg (by omega)])
  generalize loop (fun i (s : (Nat → K) × (Nat → α)) =>
      (put (put s.1 i (x (n - i - 1))) (n - i - 1) (x i), swapRows s.2 i (n - i - 1))) (n / 2)
    ((fun _ => 0 : Nat → K), rows) = st at key ⊢
  simp only [swapRows]
  by_cases h1 : i = n / 2
  · rw [if_pos h1, key _ (by omega)]
    by_cases h2 : n % 2 = 0
    · have e : n - (n - n / 2 - 1) - 1 = i := by omega
      have h3 : n - n / 2 - 1 < n / 2 ∨ n - (n - n / 2 - 1) - 1 < n / 2 := by omega
      rw [if_pos h3, if_pos ⟨h2, Or.inl h1⟩, e]
    · have e : n - n / 2 - 1 = n - i - 1 := by omega
      have h3 : ¬ (n - n / 2 - 1 < n / 2 ∨ n - (n - n / 2 - 1) - 1 < n / 2) := by omega
      rw [if_neg h3, if_neg (fun h => h2 h.1), e]
  · rw [if_neg h1]
    by_cases h2 : i = n - n / 2 - 1
    · have h3 : n % 2 = 0 := by omega
      have e : n - n / 2 - 1 = i := h2.symm
      have e1 : n - n / 2 - 1 = n / 2 - 1 := by omega
      rw [if_pos h2, key _ (by omega), if_pos (by omega), if_pos ⟨h3, Or.inr (by omega)⟩, e]
    · rw [if_neg h2, key i hi]
      by_cases h3 : i < n / 2 ∨ n - i - 1 < n / 2
      · rw [if_pos h3, if_neg (by omega)]
      · omega

/-! ## Initialization -/

/-- The position in the user's table of the `i`-th smallest point. -/
def place (x : Nat → K) (m i : Nat) : Nat := if x 1 < x 0 then m - i - 1 else i

/-- The object holds increasing tables for the ranges, which are the tables `x`, `y`, `z` up to order. -/
structure BiHolds (x y : Nat → K) (z : Nat → Nat → K) (m n : Nat) (lo hi lo2 hi2 : K) (s : Bil K) : Prop where
  alloc : s.alloc = true
  lenm : s.m = m
  lenn : s.n = n
  ascx : Asc s.x m
  ascy : Asc s.y n
  coverx0 : s.x 0 ≤ lo
  coverx1 : hi ≤ s.x (m - 1)
  rangex : lo < hi
  minX : s.minX = lo
  maxX : s.maxX = hi
  minY : s.minY = lo2
  maxY : s.maxY = hi2
  idi : s.i + 1 < m
  idj : s.j + 1 < n
  stored : ∀ i < m, ∀ j < n, s.z i j = z (place x m i) (place y n j)
  same : ∀ u t v, IsBiInterp s.x s.y s.z m n u t v ↔ IsBiInterp x y z m n u t v

theorem biInit_ok {x y : Nat → K} {z : Nat → Nat → K} {m n : Nat} {lo hi lo2 hi2 : K} {s0 s : Bil K}
    (h : Bil.init x y z m n lo hi lo2 hi2 s0 = .ok s) :
    lo < hi ∧ lo2 < hi2 ∧ 2 ≤ m ∧ 2 ≤ n ∧ orderedLoop m x = true ∧ orderedLoop n y = true ∧
    s.m = m ∧ s.n = n ∧ s.alloc = true ∧ s.flag = false ∧ s.minX = lo ∧ s.maxX = hi ∧ s.minY = lo2 ∧ s.maxY = hi2 ∧
    s.i = 0 ∧ s.j = 0 ∧ s.x 0 ≤ lo ∧ hi ≤ s.x (m - 1) ∧ s.y 0 ≤ lo2 ∧ hi2 ≤ s.y (n - 1) ∧
    s.x = (if x 1 < x 0 then reverse m x z else (x, z)).1 ∧
    s.y = (if y 1 < y 0 then reverse n y (fun j i => (if x 1 < x 0 then reverse m x z else (x, z)).2 i j)
      else (y, fun j i => (if x 1 < x 0 then reverse m x z else (x, z)).2 i j)).1 ∧
    s.z = fun i j => (if y 1 < y 0 then reverse n y (fun j i => (if x 1 < x 0 then reverse m x z else (x, z)).2 i j)
      else (y, fun j i => (if x 1 < x 0 then reverse m x z else (x, z)).2 i j)).2 j i := by
  unfold Bil.init at h
  simp only at h
  rcases ite_eq_iff.mp h with ⟨_, h⟩ | ⟨h1, h⟩
  · cases h
  rcases ite_eq_iff.mp h with ⟨_, h⟩ | ⟨h2, h⟩
  · cases h
  rcases ite_eq_iff.mp h with ⟨_, h⟩ | ⟨h3, h⟩
  · cases h
  rcases ite_eq_iff.mp h with ⟨_, h⟩ | ⟨h4, h⟩
  · cases h
  rcases ite_eq_iff.mp h with ⟨_, h⟩ | ⟨h5, h⟩
  · cases h
  rcases ite_eq_iff.mp h with ⟨_, h⟩ | ⟨h6, h⟩
  · cases h
  rcases ite_eq_iff.mp h with ⟨_, h⟩ | ⟨h7, h⟩
  · cases h
  rcases ite_eq_iff.mp h with ⟨_, h⟩ | ⟨h8, h⟩
  · cases h
  injection h with h
  subst h
  push Not at h1 h2 h7 h8
  exact ⟨h1, h2, by omega, by omega, by simpa using h5, by simpa using h6, rfl, rfl, rfl, rfl, rfl, rfl, rfl, rfl, rfl,
    rfl, h7.1, h7.2, h8.1, h8.2, rfl, rfl, rfl⟩

theorem first_lt {n : Nat} {x : Nat → K} {lo hi : K} (h : orderedLoop n x = true) (hn : 2 ≤ n) (hd : ¬ x 1 < x 0)
    (hr : lo < hi) (h0 : x 0 ≤ lo) (h1 : hi ≤ x (n - 1)) : x 0 < x 1 := by
  rcases Nat.lt_or_ge 2 n with h2 | h2
  · exact lt_of_le_of_ne (not_lt.mp hd) (ordered_ne h h2)
  · have : n = 2 := by omega
    subst this
    exact lt_of_le_of_lt h0 (lt_of_lt_of_le hr h1)

/-- The row of the user's table that is used for the point `i`: for a decreasing variable with an even number of points
the two rows in the middle are exchanged. -/
def rowUsed (x : Nat → K) (m i : Nat) : Nat :=
  if x 1 < x 0 ∧ m % 2 = 0 ∧ (i = m / 2 ∨ i + 1 = m / 2) then m - i - 1 else i

/-- After a successful `init` the object holds the tables, but for the rows in the middle. -/
theorem biHolds_init {x y : Nat → K} {z : Nat → Nat → K} {m n : Nat} {lo hi lo2 hi2 : K} {s0 s : Bil K}
    (h : Bil.init x y z m n lo hi lo2 hi2 s0 = .ok s) :
    BiHolds x y (fun i j => z (rowUsed x m i) (rowUsed y n j)) m n lo hi lo2 hi2 s ∧ s.y 0 ≤ lo2 ∧ hi2 ≤ s.y (n - 1) ∧ lo2 < hi2 := by
  obtain ⟨h1, h2, h3, h4, h5, h6, e1, e2, e3, e4, e5, e6, e7, e8, e9, e10, c1, c2, c3, c4, ex, ey, ez⟩ := biInit_ok h
  -- the first variable
  have hx : Asc s.x m ∧ (∀ (w : Nat → Nat → K) (g : Nat → Nat)
      (hw : ∀ i < m, w i = fun j => (if x 1 < x 0 then reverse m x z else (x, z)).2 i (g j))
      (yy : Nat → K) u t v, IsBiInterp s.x yy w m n u t v ↔
        IsBiInterp x yy (fun i j => z (rowUsed x m i) (g j)) m n u t v) := by
    by_cases hd : x 1 < x 0
    · rw [if_pos hd] at ex
      simp only [hd, if_true]
      have hD := desc_of_ordered h5 hd
      have exi : ∀ i < m, s.x i = x (m - i - 1) := fun i hi => by rw [ex]; exact reverse_fst m x z i hi
      refine ⟨fun i hi => ?_, fun w g hw yy u t v => ?_⟩
      · rw [exi i (by omega), exi (i + 1) hi]; exact hD.rev i hi
      · have ewi : ∀ i < m, w i = fun j => z (rowUsed x m (m - i - 1)) (g j) := fun i hi => by
          rw [hw i hi, reverse_snd m x z h3 i hi]
          unfold rowUsed
          split_ifs with a1 a2 a2
          · rw [show m - (m - i - 1) - 1 = i by omega]
          · exact absurd ⟨hd, by omega, by omega⟩ a2
          · omega
          · rfl
        constructor
        · intro hv
          exact isBiInterp_revx (fun i hi => (hD i hi).ne')
            (isBiInterp_congr exi (fun _ _ => rfl) (fun i hi j _ => by rw [ewi i hi]) hv)
        · intro hv
          refine isBiInterp_congr (fun i hi => (exi i hi).symm) (fun _ _ => rfl)
            (fun i hi j _ => by rw [ewi i hi]) ?_
          refine isBiInterp_revx (fun i hi => (hD.rev i hi).ne) ?_
          exact isBiInterp_congr (fun i hi => by rw [show m - (m - i - 1) - 1 = i by omega]) (fun _ _ => rfl)
            (fun i hi j _ => by rw [show m - (m - i - 1) - 1 = i by omega]) hv
    · rw [if_neg hd] at ex
      simp only [hd, if_false]
      rw [ex] at c1 c2 ⊢
      have er : ∀ i, rowUsed x m i = i := fun i => by unfold rowUsed; rw [if_neg (fun h => hd h.1)]
      simp only [er]
      refine ⟨asc_of_ordered h5 (first_lt h5 h3 hd h1 c1 c2), fun w g hw yy u t v => ?_⟩
      exact ⟨fun hv => isBiInterp_congr (fun _ _ => rfl) (fun _ _ => rfl) (fun i hi j _ => by rw [hw i hi]) hv,
        fun hv => isBiInterp_congr (fun _ _ => rfl) (fun _ _ => rfl) (fun i hi j _ => by rw [hw i hi]) hv⟩
  have hst : ∀ i < m, ∀ j, (if x 1 < x 0 then reverse m x z else (x, z)).2 i j = z (rowUsed x m (place x m i)) j := by
    intro i hi j
    unfold place rowUsed
    by_cases hd : x 1 < x 0
    · simp only [hd, if_true, true_and]
      rw [reverse_snd m x z h3 i hi]
      split_ifs with a1 a2 a2
      · rw [show m - (m - i - 1) - 1 = i by omega]
      · omega
      · omega
      · rfl
    · simp only [hd, if_false, false_and]
  generalize hX : (if x 1 < x 0 then reverse m x z else (x, z)) = xr at *
  -- the second variable
  have hy : Asc s.y n ∧ (∀ u t v, IsBiInterp s.x s.y s.z m n u t v ↔
      IsBiInterp s.x y (fun i j => xr.2 i (rowUsed y n j)) m n u t v) := by
    by_cases hd : y 1 < y 0
    · rw [if_pos hd] at ey ez
      have hD := desc_of_ordered h6 hd
      have eyi : ∀ i < n, s.y i = y (n - i - 1) := fun i hi => by rw [ey]; exact reverse_fst n y _ i hi
      have ezi : ∀ i, ∀ j < n, s.z i j = xr.2 i (rowUsed y n (n - j - 1)) := fun i j hj => by
        rw [ez]; simp only
        rw [reverse_snd n y _ h4 j hj]
        unfold rowUsed
        split_ifs with a1 a2 a2
        · rw [show n - (n - j - 1) - 1 = j by omega]
        · exact absurd ⟨hd, by omega, by omega⟩ a2
        · omega
        · rfl
      refine ⟨fun i hi => ?_, fun u t v => ⟨fun hv => ?_, fun hv => ?_⟩⟩
      · rw [eyi i (by omega), eyi (i + 1) hi]; exact hD.rev i hi
      · exact isBiInterp_revy (fun i hi => (hD i hi).ne')
          (isBiInterp_congr (fun _ _ => rfl) eyi (fun i _ j hj => ezi i j hj) hv)
      · refine isBiInterp_congr (fun _ _ => rfl) (fun i hi => (eyi i hi).symm) (fun i _ j hj => (ezi i j hj).symm) ?_
        refine isBiInterp_revy (fun i hi => (hD.rev i hi).ne) ?_
        exact isBiInterp_congr (fun _ _ => rfl) (fun i hi => by rw [show n - (n - i - 1) - 1 = i by omega])
          (fun i _ j hj => by rw [show n - (n - j - 1) - 1 = j by omega]) hv
    · rw [if_neg hd] at ey ez
      rw [ey] at c3 c4 ⊢
      have er : ∀ i, rowUsed y n i = i := fun i => by unfold rowUsed; rw [if_neg (fun h => hd h.1)]
      simp only [er]
      rw [ez]
      exact ⟨asc_of_ordered h6 (first_lt h6 h4 hd h2 c3 c4), fun u t v => Iff.rfl⟩
  have hsz : ∀ i < m, ∀ j < n, s.z i j = z (rowUsed x m (place x m i)) (rowUsed y n (place y n j)) := by
    intro i hi j hj
    have e : s.z i j = xr.2 i (rowUsed y n (place y n j)) := by
      rw [ez]; simp only
      unfold place rowUsed
      by_cases hd : y 1 < y 0
      · simp only [hd, if_true, true_and]
        rw [reverse_snd n y _ h4 j hj]
        by_cases a1 : n % 2 = 0 ∧ (j = n / 2 ∨ j + 1 = n / 2)
        · have a2 : n % 2 = 0 ∧ (n - j - 1 = n / 2 ∨ n - j - 1 + 1 = n / 2) := by omega
          rw [if_pos a1, if_pos a2, show n - (n - j - 1) - 1 = j by omega]
        · have a2 : ¬ (n % 2 = 0 ∧ (n - j - 1 = n / 2 ∨ n - j - 1 + 1 = n / 2)) := by omega
          rw [if_neg a1, if_neg a2]
      · simp only [hd, if_false, false_and]
    rw [e, hst i hi]
  refine ⟨⟨e3, e1, e2, hx.1, hy.1, c1, c2, h1, e5, e6, e7, e8, by omega, by omega, hsz, fun u t v => ?_⟩, c3, c4, h2⟩
  rw [hy.2, hx.2 _ (rowUsed y n) (fun _ _ => rfl) y u t v]

/-! ## Evaluation -/

theorem biEvaluate_spec {x y : Nat → K} {z : Nat → Nat → K} {m n : Nat} {lo hi lo2 hi2 u t : K} {s : Bil K}
    (h : BiHolds x y z m n lo hi lo2 hi2 s) (u0 : lo ≤ u) (u1 : u ≤ hi) (t0 : s.y 0 ≤ t) (t1 : t ≤ s.y (n - 1)) :
    ∃ v s1, s.evaluate u t = some (v, s1) ∧ BiHolds x y z m n lo hi lo2 hi2 s1 ∧ s1.y = s.y ∧
      IsBiInterp x y z m n u t v := by
  obtain ⟨i1, i2, i3⟩ := cell_spec h.ascx h.idi (h.coverx0.trans u0) (u1.trans h.coverx1)
  obtain ⟨j1, j2, j3⟩ := cell_spec h.ascy h.idj t0 t1
  unfold Bil.evaluate
  rw [if_pos ⟨h.alloc, by rw [h.lenm]; exact h.idi, by rw [h.lenn]; exact h.idj⟩]
  refine ⟨_, _, rfl, ?_, rfl, ?_⟩
  · exact ⟨h.alloc, h.lenm, h.lenn, h.ascx, h.ascy, h.coverx0, h.coverx1, h.rangex, h.minX, h.maxX, h.minY, h.maxY,
      by simpa only [h.lenm] using i1, by simpa only [h.lenn] using j1, h.stored, h.same⟩
  · rw [h.lenm, h.lenn]
    refine (h.same _ _ _).mp (isBiInterp_of_cell h.ascx h.ascy i1 j1 i2 i3 j2 j3 ?_)
    have hx := (sub_pos.mpr (h.ascx _ i1)).ne'
    have hy := (sub_pos.mpr (h.ascy _ j1)).ne'
    unfold line
    field_simp
    ring

end Gunns.Interp
