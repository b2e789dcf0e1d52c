import Verif.Math.InterpRev

/-!
# C36, C37: interpolation in tables
-/

set_option linter.unusedSectionVars false

namespace Gunns.Props

open Gunns.Interp

variable {K : Type _} [Field K] [LinearOrder K] [IsStrictOrderedRing K]

/-- For the examples: a call that ended normally with a state of some kind. -/
theorem ok_of {α : Type _} {r : Res α} {P : α → Prop} [DecidablePred P]
    (h : (match r with | .ok s => decide (P s) | .thrown _ => false) = true) : ∃ s, r = .ok s ∧ P s := by
  cases r with
  | ok s => exact ⟨s, rfl, of_decide_eq_true h⟩
  | thrown s => cases h

/-! ## C36: one variable -/

/-- C36: whatever the calls before, `get` is the value of the piecewise linear function through the user's points at the
argument moved into the range, and `getExceptional` the value at the argument, or an exception outside of the range. No
access leaves the arrays. The index left by the use of another table must be one of the new table. -/
theorem c36_history {x z : Nat → K} {n : Nat} {lo hi : K} {s0 s : Lin K} (h : Lin.init x z n lo hi s0 = .ok s)
    (h0 : s0.i + 1 < n) (calls : List (Call K)) :
    ∃ answers s1, runCalls Lin.call calls s = some (answers, s1) ∧ s1.i + 1 < n ∧
      List.Forall₂ (Answer x z n lo hi) calls answers := by
  obtain ⟨os, s1, e, h1, h2⟩ := run_spec calls (holds_init h h0).1
  exact ⟨os, s1, e, h1.idx, h2⟩

/-- C36: for a new object nothing is needed. -/
theorem c36_new {x z : Nat → K} {n : Nat} {lo hi : K} {s : Lin K} (h : Lin.init x z n lo hi Lin.new = .ok s)
    (calls : List (Call K)) : ∃ answers s1, runCalls Lin.call calls s = some (answers, s1) ∧
      List.Forall₂ (Answer x z n lo hi) calls answers := by
  obtain ⟨os, s1, e, _, h2⟩ := c36_history h (by have := (init_ok h).2.1; show 0 + 1 < n; omega) calls
  exact ⟨os, s1, e, h2⟩

/-- C36: what the answers satisfy: a table that was accepted is strictly increasing or strictly decreasing and covers the
range; then the value is unique, equals the table at its points and stays within bounds of the table's values. -/
theorem c36_values {x z : Nat → K} {n : Nat} {lo hi : K} {s0 s : Lin K} (h : Lin.init x z n lo hi s0 = .ok s) :
    (Asc x n ∨ Desc x n) ∧ (∀ t, lo ≤ t → t ≤ hi → ∃ v, IsInterp x z n t v) ∧
    (∀ t v w, IsInterp x z n t v → IsInterp x z n t w → v = w) ∧
    (∀ k < n, ∀ v, IsInterp x z n (x k) v → v = z k) ∧
    (∀ a b, (∀ k < n, a ≤ z k ∧ z k ≤ b) → ∀ t v, IsInterp x z n t v → a ≤ v ∧ v ≤ b) := by
  obtain ⟨h1, h2, _⟩ := init_ok h
  -- the same table in a new object
  obtain ⟨s', hs'⟩ : ∃ s', Lin.init x z n lo hi { s0 with i := 0 } = .ok s' := by
    refine ⟨{ s with i := 0 }, ?_⟩
    unfold Lin.init at h ⊢
    simp only at h ⊢
    rcases ite_eq_iff.mp h with ⟨_, h⟩ | ⟨a1, h⟩
    · cases h
    rcases ite_eq_iff.mp h with ⟨_, h⟩ | ⟨a2, h⟩
    · cases h
    rcases ite_eq_iff.mp h with ⟨_, h⟩ | ⟨a3, h⟩
    · cases h
    rw [if_neg a1, if_neg a2, if_neg a3]
    injection h with h
    subst h
    rfl
  obtain ⟨hH, hm⟩ := holds_init hs' (by show 0 + 1 < n; omega)
  refine ⟨hm, fun t t0 t1 => ?_, fun t v w => IsInterp.unique, fun k hk v hv => hv.knot hm hk h2,
    fun a b hz t v hv => hv.bounds hm hz⟩
  obtain ⟨v, _, _, _, hv⟩ := evaluate_spec hH t0 t1
  exact ⟨v, hv⟩

/-- C36: the slope of the answers is within the bounds of the slopes of the table; with bounds `0` and above this is
monotony, with `-L` and `L` continuity. -/
theorem c36_slope {x z : Nat → K} {n : Nat} {t u v w a b : K} (hx : Asc x n)
    (hz : ∀ k, k + 1 < n → a * (x (k + 1) - x k) ≤ z (k + 1) - z k ∧ z (k + 1) - z k ≤ b * (x (k + 1) - x k))
    (ht : IsInterp x z n t v) (hu : IsInterp x z n u w) (htu : t ≤ u) :
    a * (u - t) ≤ w - v ∧ w - v ≤ b * (u - t) := ht.slope hx hz hu htu

/-- C36: a table is refused exactly if the range is empty, the points are not in strict order with the required distance
or do not cover the range. -/
theorem c36_accepts {x z : Nat → K} {n : Nat} {lo hi : K} {s0 : Lin K} :
    (∃ s, Lin.init x z n lo hi s0 = .ok s ∧ s.flag = true) ↔
      (lo < hi ∧ 2 ≤ n ∧ (∀ i, i + 2 < n → dblEps ≤ |x i - x (i + 1)|) ∧
        ((Asc x n ∧ x 0 ≤ lo ∧ hi ≤ x (n - 1)) ∨ (Desc x n ∧ x (n - 1) ≤ lo ∧ hi ≤ x 0))) := by
  constructor
  · rintro ⟨s, h, _⟩
    obtain ⟨h1, h2, h3, _, _, _, _, _, _, h10, _, h12, h13⟩ := init_ok h
    obtain hm := (c36_values h).1
    refine ⟨h1, h2, fun i hi => orderedLoop_spaced h3 i hi, ?_⟩
    rw [h10] at h12 h13
    rcases hm with hm | hm
    · have hn : ¬ x 1 < x 0 := not_lt.mpr (hm 0 (by omega)).le
      simp only [hn, if_false] at h12 h13
      exact Or.inl ⟨hm, h12, h13⟩
    · have hn : x 1 < x 0 := hm 0 (by omega)
      simp only [hn, if_true] at h12 h13
      refine Or.inr ⟨hm, by simpa using h12, ?_⟩
      rw [show n - (n - 1) - 1 = 0 by omega] at h13
      exact h13
  · rintro ⟨h1, h2, h3, h4⟩
    have hord : validateOrdered n x = true := by
      unfold validateOrdered orderedLoop
      rw [if_neg (by omega)]
      refine loop_inv (fun _ r => r = true) (n - 2) rfl (fun k hk r hr => ?_)
      have hne : ¬ (x (k + 1) ≤ x k ∧ x (k + 1) ≤ x (k + 2)) ∧ ¬ (x k ≤ x (k + 1) ∧ x (k + 2) ≤ x (k + 1)) := by
        rcases h4 with ⟨hm, _⟩ | ⟨hm, _⟩
        · exact ⟨fun h => absurd h.1 (not_le.mpr (hm k (by omega))),
            fun h => absurd h.2 (not_le.mpr (hm (k + 1) (by omega)))⟩
        · exact ⟨fun h => absurd h.2 (not_le.mpr (hm (k + 1) (by omega))),
            fun h => absurd h.1 (not_le.mpr (hm k (by omega)))⟩
      rw [if_neg hne.1, if_neg hne.2, if_neg (not_lt.mpr (h3 k (by omega)))]
      exact hr
    unfold Lin.init
    simp only
    rw [if_neg (not_le.mpr h1), if_neg (by rw [hord]; decide)]
    rw [if_neg]
    · exact ⟨_, rfl, rfl⟩
    · push Not
      rcases h4 with ⟨hm, c1, c2⟩ | ⟨hm, c1, c2⟩
      · have hn : ¬ x 1 < x 0 := not_lt.mpr (hm 0 (by omega)).le
        simp only [hn, decide_false]
        exact ⟨c1, c2⟩
      · have hn : x 1 < x 0 := hm 0 (by omega)
        simp only [hn, decide_true, if_true]
        rw [show n - (n - 1) - 1 = 0 by omega]
        exact ⟨c1, c2⟩

/-- C36, limit: an object that was used with a long table and is initialised again with a short one reads outside of its
arrays, because the index is kept. -/
theorem c36_reinit_out_of_bounds : ∃ s1 s2 s3 : Lin ℚ,
    Lin.init (fun i : Nat => (i : ℚ)) (fun i => (i : ℚ)) 5 0 4 Lin.new = .ok s1 ∧
    (∃ v, s1.get 4 = some (v, s2)) ∧
    Lin.init (fun i : Nat => (i : ℚ)) (fun i => (i : ℚ)) 2 0 1 s2 = .ok s3 ∧ s3.flag = true ∧ ∀ t, s3.get t = none := by
  obtain ⟨s1, h1⟩ : ∃ s, Lin.init (fun i : Nat => (i : ℚ)) (fun i => (i : ℚ)) 5 0 4 (Lin.new : Lin ℚ) = .ok s := by
    obtain ⟨s, hs, _⟩ := (c36_accepts (x := fun i : Nat => (i : ℚ)) (z := fun i : Nat => (i : ℚ)) (n := 5) (lo := 0) (hi := 4)
      (s0 := Lin.new)).mpr ⟨by norm_num, by norm_num, fun i hi => by
        have : ((i : ℚ) - ((i + 1 : Nat) : ℚ)) = -1 := by push_cast; ring
        simp only [this]; norm_num [dblEps], Or.inl ⟨fun i _ => by simp, by simp, by norm_num⟩⟩
    exact ⟨s, hs⟩
  have f1 := init_ok h1
  have hx1 : s1.x = fun i : Nat => (i : ℚ) := by rw [f1.2.2.2.2.2.2.2.2.2.1]; norm_num
  have hi1 : s1.i = 0 := f1.2.2.2.2.2.2.2.2.1
  have hn1 : s1.n = 5 := f1.2.2.2.1
  have hsel : selectCell (limitRange s1.minX 4 s1.maxX) s1.x s1.n s1.i = some 3 := by
    rw [hx1, hi1, hn1, f1.2.2.2.2.2.2.1, f1.2.2.2.2.2.2.2.1]
    decide +kernel
  obtain ⟨s3, h3, f3⟩ := (c36_accepts (x := fun i : Nat => (i : ℚ)) (z := fun i : Nat => (i : ℚ)) (n := 2) (lo := 0) (hi := 1)
      (s0 := { s1 with i := 3 })).mpr ⟨by norm_num, by norm_num, fun i hi => by omega,
        Or.inl ⟨fun i _ => by simp, by simp, by norm_num⟩⟩
  refine ⟨s1, { s1 with i := 3 }, s3, h1, ?_, h3, f3, fun t => ?_⟩
  · unfold Lin.get Lin.evaluate
    rw [if_pos f1.2.2.2.2.1, hsel]
    exact ⟨_, rfl⟩
  · have g := init_ok h3
    unfold Lin.get Lin.evaluate selectCell
    rw [if_pos g.2.2.2.2.1, g.2.2.2.1, g.2.2.2.2.2.2.2.2.1]
    rfl

/-- C36 is not vacuous: a decreasing table with three points, and three calls. -/
example : ∃ s, Lin.init (fun i => 10 - (i : ℚ)) (fun i => (i : ℚ) * i) 3 8 10 Lin.new = .ok s ∧
    (runCalls Lin.call [.get 9, .exact (17 / 2), .exact 11, .get 0] s).map Prod.fst =
      some [some 1, some (5 / 2), none, some 4] := ok_of (by decide +kernel)

/-! ## C37: two variables -/

/-- What a call of a bilinear interpolator must answer. -/
def Answer2 (x y : Nat → K) (z : Nat → Nat → K) (m n : Nat) (lo hi lo2 hi2 : K) : Call2 K → Option K → Prop
  | .get u t, o => ∃ v, o = some v ∧ IsBiInterp x y z m n (clamp lo u hi) (clamp lo2 t hi2) v
  | .exact u t, o =>
    ((lo ≤ u ∧ u ≤ hi) ∧ (lo2 ≤ t ∧ t ≤ hi2) → ∃ v, o = some v ∧ IsBiInterp x y z m n u t v) ∧
    (¬ ((lo ≤ u ∧ u ≤ hi) ∧ (lo2 ≤ t ∧ t ≤ hi2)) → o = none)

/-- The variable is not stored in a wrong order: it increases, or has an odd number of points. -/
def Regular (x : Nat → K) (m : Nat) : Prop := x 0 < x 1 ∨ m % 2 = 1

theorem rowUsed_regular {x : Nat → K} {m : Nat} (h : Regular x m) (i : Nat) : rowUsed x m i = i := by
  unfold rowUsed
  rw [if_neg]
  rintro ⟨h1, h2, _⟩
  rcases h with h | h
  · exact absurd h1 (not_lt.mpr h.le)
  · omega

/-- C37, exactly what the code does with any accepted table: the function through the user's points, with the two rows
(columns) in the middle exchanged if the variable decreases and has an even number of points. -/
theorem c37_exact {x y : Nat → K} {z : Nat → Nat → K} {m n : Nat} {lo hi lo2 hi2 : K} {s0 s : Bil K}
    (h : Bil.init x y z m n lo hi lo2 hi2 s0 = .ok s) (calls : List (Call2 K)) :
    ∃ answers s1, runCalls Bil.call calls s = some (answers, s1) ∧
      List.Forall₂ (Answer2 x y (fun i j => z (rowUsed x m i) (rowUsed y n j)) m n lo hi lo2 hi2) calls answers := by
  obtain ⟨hH, c1, c2, h2⟩ := biHolds_init h
  have key := runCalls_spec (f := Bil.call)
    (Inv := fun s' => BiHolds x y (fun i j => z (rowUsed x m i) (rowUsed y n j)) m n lo hi lo2 hi2 s' ∧ s'.y = s.y)
    (A := Answer2 x y (fun i j => z (rowUsed x m i) (rowUsed y n j)) m n lo hi lo2 hi2)
    (fun s' hs' c => by
      obtain ⟨hB, hy⟩ := hs'
      cases c with
      | get u t =>
        have hu := clamp_mem (t := u) hB.rangex.le
        have ht := clamp_mem (t := t) h2.le
        obtain ⟨v, s1, e, b1, b2, b3⟩ := biEvaluate_spec hB hu.1 hu.2 (t := clamp lo2 t hi2) (by rw [hy]; exact c1.trans ht.1)
          (by rw [hy]; exact ht.2.trans c2)
        refine ⟨some v, s1, ?_, ⟨b1, b2.trans hy⟩, v, rfl, b3⟩
        simp only [Bil.call, Bil.get]
        rw [hB.minX, hB.maxX, hB.minY, hB.maxY, limitRange_eq hB.rangex.le, limitRange_eq h2.le, e]; rfl
      | exact u t =>
        simp only [Bil.call, Bil.getExceptional, Answer2]
        rw [hB.minX, hB.maxX, hB.minY, hB.maxY]
        by_cases hr : lo ≤ u ∧ u ≤ hi
        · have hn : ¬ (u < lo ∨ hi < u) := by push Not; exact hr
          rw [if_neg hn]
          by_cases hr2 : lo2 ≤ t ∧ t ≤ hi2
          · have hn2 : ¬ (t < lo2 ∨ hi2 < t) := by push Not; exact hr2
            obtain ⟨v, s1, e, b1, b2, b3⟩ := biEvaluate_spec hB hr.1 hr.2 (t := t) (by rw [hy]; exact c1.trans hr2.1)
              (by rw [hy]; exact hr2.2.trans c2)
            rw [if_neg hn2, e]
            exact ⟨some v, s1, rfl, ⟨b1, b2.trans hy⟩, fun _ => ⟨v, rfl, b3⟩, fun hc => absurd ⟨hr, hr2⟩ hc⟩
          · have hn2 : t < lo2 ∨ hi2 < t := by
              by_contra hc
              push Not at hc
              exact hr2 hc
            rw [if_pos hn2]
            exact ⟨none, s', rfl, ⟨hB, hy⟩, fun hc => absurd hc.2 hr2, fun _ => rfl⟩
        · have hn : u < lo ∨ hi < u := by
            by_contra hc
            push Not at hc
            exact hr hc
          rw [if_pos hn]
          exact ⟨none, s', rfl, ⟨hB, hy⟩, fun hc => absurd hc.1 hr, fun _ => rfl⟩)
    calls ⟨hH, rfl⟩
  obtain ⟨os, s1, e, _, a⟩ := key
  exact ⟨os, s1, e, a⟩

/-- C37 for tables that increase or have an odd number of points in each variable: the function through the user's
points. Missing: decreasing variables with an even number of points, for which it is false (`c37_even_wrong`). -/
theorem c37_history_partial {x y : Nat → K} {z : Nat → Nat → K} {m n : Nat} {lo hi lo2 hi2 : K} {s0 s : Bil K}
    (h : Bil.init x y z m n lo hi lo2 hi2 s0 = .ok s) (hx : Regular x m) (hy : Regular y n)
    (calls : List (Call2 K)) :
    ∃ answers s1, runCalls Bil.call calls s = some (answers, s1) ∧
      List.Forall₂ (Answer2 x y z m n lo hi lo2 hi2) calls answers := by
  have := c37_exact h calls
  simpa only [rowUsed_regular hx, rowUsed_regular hy] using this

/-- C37 is not vacuous: a table of 3 by 2 points, decreasing in the first variable. -/
example : ∃ s, Bil.init (fun i => 2 - (i : ℚ)) (fun j => (j : ℚ)) (fun i j => (2 - (i : ℚ)) * (j + 1)) 3 2 0 2 0 1
      Bil.new = .ok s ∧ Regular (fun i => 2 - (i : ℚ)) 3 ∧ Regular (fun j => (j : ℚ)) 2 ∧
    (runCalls Bil.call [.get (3 / 2) (1 / 2), .exact 0 1, .exact 3 1, .get 5 5] s).map Prod.fst =
      some [some (9 / 4), some 0, none, some 4] := by
  obtain ⟨s, h1, h2⟩ := ok_of (r := Bil.init (fun i : Nat => 2 - (i : ℚ)) (fun j => (j : ℚ))
      (fun i j => (2 - (i : ℚ)) * (j + 1)) 3 2 0 2 0 1 Bil.new)
    (P := fun s => (runCalls Bil.call [.get (3 / 2) (1 / 2), .exact 0 1, .exact 3 1, .get 5 5] s).map Prod.fst =
      some [some (9 / 4), some 0, none, some 4]) (by decide +kernel)
  exact ⟨s, h1, Or.inr rfl, Or.inl (by norm_num), h2⟩

/-- C37 fails: with two points in decreasing order in the first variable the values of the table are assigned to the
wrong points: at the point 1 with value 1 the answer is 0, and the other way round. -/
theorem c37_even_wrong : ∃ s, Bil.init (fun i => 1 - (i : ℚ)) (fun j => (j : ℚ)) (fun i _ => 1 - (i : ℚ)) 2 2 0 1 0 1
      Bil.new = .ok s ∧
    (runCalls Bil.call [.get 1 0, .get 0 0] s).map Prod.fst = some [some 0, some 1] ∧
    IsBiInterp (fun i => 1 - (i : ℚ)) (fun j => (j : ℚ)) (fun i _ => 1 - (i : ℚ)) 2 2 1 0 1 := by
  obtain ⟨s, h1, h2⟩ := ok_of (r := Bil.init (fun i : Nat => 1 - (i : ℚ)) (fun j => (j : ℚ)) (fun i _ => 1 - (i : ℚ))
      2 2 0 1 0 1 Bil.new)
    (P := fun s => (runCalls Bil.call [.get 1 0, .get 0 0] s).map Prod.fst = some [some 0, some 1]) (by decide +kernel)
  refine ⟨s, h1, h2, ?_⟩
  refine ⟨⟨0, by omega, Or.inr (by norm_num)⟩, ⟨0, by omega, Or.inl (by norm_num)⟩, fun k l hk hl _ _ => ?_⟩
  have : k = 0 := by omega
  have : l = 0 := by omega
  subst k l
  norm_num [line]

/-- C37, limit: the base class says "not initialised" after every successful initialization. -/
theorem c37_flag {x y : Nat → K} {z : Nat → Nat → K} {m n : Nat} {lo hi lo2 hi2 : K} {s0 s : Bil K}
    (h : Bil.init x y z m n lo hi lo2 hi2 s0 = .ok s) : s.flag = false := (biInit_ok h).2.2.2.2.2.2.2.2.2.1

/-- C37, limit: after any refused table with at least one row the destructor of a new object goes through a null
pointer. -/
theorem c37_refused_destroy {x y : Nat → K} {z : Nat → Nat → K} {m n : Nat} {lo hi lo2 hi2 : K} {s : Bil K}
    (h : Bil.init x y z m n lo hi lo2 hi2 Bil.new = .thrown s) (hr : lo < hi) (hr2 : lo2 < hi2) (hm : 0 < m) :
    s.destroy = false := by
  have hm' : (m == 0) = false := by
    rw [beq_eq_false_iff_ne]; omega
  unfold Bil.init at h
  simp only at h
  rw [if_neg (not_le.mpr hr), if_neg (not_le.mpr hr2)] at h
  unfold Bil.destroy
  rcases ite_eq_iff.mp h with ⟨_, h⟩ | ⟨_, h⟩
  · injection h with h; subst h; simp [hm', Bil.new]
  rcases ite_eq_iff.mp h with ⟨_, h⟩ | ⟨_, h⟩
  · injection h with h; subst h; simp [hm', Bil.new]
  rcases ite_eq_iff.mp h with ⟨_, h⟩ | ⟨_, h⟩
  · injection h with h; subst h; simp [hm', Bil.new]
  rcases ite_eq_iff.mp h with ⟨_, h⟩ | ⟨_, h⟩
  · injection h with h; subst h; simp [hm', Bil.new]
  rcases ite_eq_iff.mp h with ⟨_, h⟩ | ⟨_, h⟩
  · injection h with h; subst h; simp [hm']
  rcases ite_eq_iff.mp h with ⟨_, h⟩ | ⟨_, h⟩
  · injection h with h; subst h; simp [hm']
  cases h

/-- C37, limit: such a refusal, of a table that does not cover the range. -/
example : ∃ s, Bil.init (fun i => (i : ℚ)) (fun j => (j : ℚ)) (fun _ _ => 0) 2 2 0 3 0 1 Bil.new = .thrown s ∧
    s.destroy = false := ⟨_, rfl, rfl⟩

/-! ## C37: the second variable from the first and the value -/

/-- What a call of a reverse interpolator must answer: a point of the second variable at which the function is closest to
the value, so equal to it if it takes the value at all. `mn` and `mx` are the least and the greatest entry. -/
def AnswerReverse (x y : Nat → K) (z : Nat → Nat → K) (m n : Nat) (lo hi mn mx : K) : Call2 K → Option K → Prop
  | .get u w, o => ∃ t, o = some t ∧ Closest x y z m n (clamp lo u hi) w t
  | .exact u w, o =>
    ((lo ≤ u ∧ u ≤ hi) ∧ (mn ≤ w ∧ w ≤ mx) → ∃ t, o = some t ∧ Closest x y z m n u w t) ∧
    (¬ ((lo ≤ u ∧ u ≤ hi) ∧ (mn ≤ w ∧ w ≤ mx)) → o = none)

/-- `a` is the least and `b` the greatest entry of the table. -/
def Extremes (z : Nat → Nat → K) (m n : Nat) (a b : K) : Prop :=
  (∀ i < m, ∀ j < n, a ≤ z i j ∧ z i j ≤ b) ∧ (∃ i < m, ∃ j < n, a = z i j) ∧ (∃ i < m, ∃ j < n, b = z i j)

theorem place_lt {x : Nat → K} {m i : Nat} (h : i < m) : place x m i < m := by
  unfold place; split_ifs <;> omega

theorem place_place {x : Nat → K} {m i : Nat} (h : i < m) : place x m (place x m i) = i := by
  unfold place; split_ifs <;> omega

theorem biInterp_bounds {x y : Nat → K} {z : Nat → Nat → K} {m n : Nat} {u t v a b : K} (hx : Asc x m) (hy : Asc y n)
    (hz : ∀ i < m, ∀ j < n, a ≤ z i j ∧ z i j ≤ b) (h : IsBiInterp x y z m n u t v) : a ≤ v ∧ v ≤ b := by
  obtain ⟨⟨k, hk, hb⟩, ⟨l, hl, hc⟩, h⟩ := h
  rw [h k l hk hl hb hc]
  have e1 := line_mem (hx k hk).ne hb (hz k (by omega) l (by omega)).1 (hz (k + 1) hk l (by omega)).1
    (hz k (by omega) l (by omega)).2 (hz (k + 1) hk l (by omega)).2
  have e2 := line_mem (hx k hk).ne hb (hz k (by omega) (l + 1) hl).1 (hz (k + 1) hk (l + 1) hl).1
    (hz k (by omega) (l + 1) hl).2 (hz (k + 1) hk (l + 1) hl).2
  exact line_mem (hy l hl).ne hc e1.1 e2.1 e1.2 e2.2

/-- C37, reverse: for regular tables with entries below 5e15 whose value at the smallest pair of arguments is not the only
greatest one. Missing: tables with their greatest value there, for which it is false (`c37_reverse_wrong`), and even
decreasing tables. -/
theorem c37_reverse_partial {x y : Nat → K} {z : Nat → Nat → K} {m n : Nat} {lo hi lo2 hi2 b : K} {s0 s : Bil K}
    (h : Bil.init x y z m n lo hi lo2 hi2 s0 = .ok s) (hx : Regular x m) (hy : Regular y n)
    (hb : b + b < (10 : K) ^ 16) (hz : ∀ i < m, ∀ j < n, -b ≤ z i j ∧ z i j ≤ b)
    (hf : ∃ i < m, ∃ j < n, (i ≠ place x m 0 ∨ j ≠ place y n 0) ∧ z (place x m 0) (place y n 0) ≤ z i j)
    (calls : List (Call2 K)) :
    ∃ mn mx answers s1, Extremes z m n mn mx ∧ runCalls Bil.callReverse calls s.initReverse = some (answers, s1) ∧
      List.Forall₂ (AnswerReverse x y z m n lo hi mn mx) calls answers := by
  obtain ⟨hH, c1, c2, h2⟩ := biHolds_init h
  simp only [rowUsed_regular hx, rowUsed_regular hy] at hH
  have hm : 0 < m := by have := hH.idi; omega
  have hn : 0 < n := by have := hH.idj; omega
  have hst : ∀ i < m, ∀ j < n, s.z i j = z (place x m i) (place y n j) := hH.stored
  have hzs : ∀ i < m, ∀ j < n, -b ≤ s.z i j ∧ s.z i j ≤ b := fun i hi j hj => by
    rw [hst i hi j hj]; exact hz _ (place_lt hi) _ (place_lt hj)
  have hb0 : 0 ≤ b := by have := hz 0 hm 0 hn; linarith
  obtain ⟨r1, ⟨a1, ha1, a2, ha2, a3⟩, b1, hb1, b2, hb2, b3⟩ := initReverse_range (s := s)
    (by
      rw [hH.lenm, hH.lenn]
      intro i hi j hj
      have := hzs i hi j hj
      constructor <;> linarith)
    (by
      rw [hH.lenm, hH.lenn]
      obtain ⟨i, hi, j, hj, hne, hle⟩ := hf
      refine ⟨place x m i, place_lt hi, place y n j, place_lt hj, ?_, ?_⟩
      · rcases hne with hne | hne
        · left; intro e; apply hne; rw [← e, place_place hi]
        · right; intro e; apply hne; rw [← e, place_place hj]
      · rw [hst 0 hm 0 hn, hst _ (place_lt hi) _ (place_lt hj), place_place hi, place_place hj]
        exact hle)
  rw [hH.lenm, hH.lenn] at r1
  rw [hH.lenm] at ha1 hb1
  rw [hH.lenn] at ha2 hb2
  have hR : BiHolds x y z m n lo hi s.initReverse.minY s.initReverse.maxY s.initReverse :=
    ⟨hH.alloc, hH.lenm, hH.lenn, hH.ascx, hH.ascy, hH.coverx0, hH.coverx1, hH.rangex, hH.minX, hH.maxX, rfl, rfl,
      hH.idi, hH.idj, hH.stored, hH.same⟩
  have hzR : s.initReverse.z = s.z := rfl
  generalize s.initReverse = sr at *
  generalize sr.minY = mn at *
  generalize sr.maxY = mx at *
  have hmm : mn ≤ mx := (r1 0 hm 0 hn).1.trans (r1 0 hm 0 hn).2
  have hmb : -b ≤ mn ∧ mx ≤ b := by
    rw [a3, b3]
    exact ⟨(hzs a1 ha1 a2 ha2).1, (hzs b1 hb1 b2 hb2).2⟩
  have hext : Extremes z m n mn mx := by
    refine ⟨fun i hi j hj => ?_, ⟨place x m a1, place_lt ha1, place y n a2, place_lt ha2, ?_⟩,
      place x m b1, place_lt hb1, place y n b2, place_lt hb2, ?_⟩
    · have := r1 _ (place_lt (x := x) hi) _ (place_lt (x := y) hj)
      rw [hst _ (place_lt hi) _ (place_lt hj), place_place hi, place_place hj] at this
      exact this
    · rw [a3]; exact hst a1 ha1 a2 ha2
    · rw [b3]; exact hst b1 hb1 b2 hb2
  have hrange : ∀ u t v, IsBiInterp x y z m n u t v → mn ≤ v ∧ v ≤ mx := fun u t v hv => by
    refine biInterp_bounds (z := sr.z) hR.ascx hR.ascy (fun i hi j hj => ?_) ((hR.same u t v).mpr hv)
    rw [hzR]; exact r1 i hi j hj
  have key := runCalls_spec (f := Bil.callReverse)
    (Inv := fun s' => BiHolds x y z m n lo hi mn mx s' ∧ s'.z = s.z) (A := AnswerReverse x y z m n lo hi mn mx)
    (fun s' hs' c => by
      obtain ⟨hB, hzz⟩ := hs'
      have hzb : ∀ i < m, ∀ j < n, -b ≤ s'.z i j ∧ s'.z i j ≤ b := by rw [hzz]; exact hzs
      cases c with
      | get u w =>
        have hu := clamp_mem (t := u) hB.rangex.le
        have hw := clamp_mem (t := w) hmm
        obtain ⟨t, s1, e, q1, q2, q3⟩ := evaluateReverse_spec hB hu.1 hu.2 hb hzb
          ⟨hmb.1.trans hw.1, hw.2.trans hmb.2⟩
        refine ⟨some t, s1, ?_, ⟨q1, q2.trans hzz⟩, t, rfl, closest_clamp (fun t v => hrange _ t v) q3⟩
        simp only [Bil.callReverse, Bil.getReverse]
        rw [hB.minX, hB.maxX, hB.minY, hB.maxY, limitRange_eq hB.rangex.le, limitRange_eq hmm, e]; rfl
      | exact u w =>
        simp only [Bil.callReverse, Bil.getExceptionalReverse, AnswerReverse]
        rw [hB.minX, hB.maxX, hB.minY, hB.maxY]
        by_cases hr : lo ≤ u ∧ u ≤ hi
        · have hn : ¬ (u < lo ∨ hi < u) := by push Not; exact hr
          rw [if_neg hn]
          by_cases hr2 : mn ≤ w ∧ w ≤ mx
          · have hn2 : ¬ (w < mn ∨ mx < w) := by push Not; exact hr2
            obtain ⟨t, s1, e, q1, q2, q3⟩ := evaluateReverse_spec hB hr.1 hr.2 hb hzb
              ⟨hmb.1.trans hr2.1, hr2.2.trans hmb.2⟩
            rw [if_neg hn2, e]
            exact ⟨some t, s1, rfl, ⟨q1, q2.trans hzz⟩, fun _ => ⟨t, rfl, q3⟩, fun hc => absurd ⟨hr, hr2⟩ hc⟩
          · have hn2 : w < mn ∨ mx < w := by
              by_contra hc
              push Not at hc
              exact hr2 hc
            rw [if_pos hn2]
            exact ⟨none, s', rfl, ⟨hB, hzz⟩, fun hc => absurd hc.2 hr2, fun _ => rfl⟩
        · have hn : u < lo ∨ hi < u := by
            by_contra hc
            push Not at hc
            exact hr hc
          rw [if_pos hn]
          exact ⟨none, s', rfl, ⟨hB, hzz⟩, fun hc => absurd hc.1 hr, fun _ => rfl⟩)
    calls ⟨hR, hzR⟩
  obtain ⟨os, s1, e, _, a⟩ := key
  exact ⟨mn, mx, os, s1, hext, e, a⟩

/-- C37, round trip: a value the table takes at `u` is taken at every closest point. -/
theorem c37_round_trip {x y : Nat → K} {z : Nat → Nat → K} {m n : Nat} {u w t t0 : K}
    (h : Closest x y z m n u w t) (h0 : IsBiInterp x y z m n u t0 w) : IsBiInterp x y z m n u t w := by
  obtain ⟨v, v1, v2⟩ := h
  have := v2 t0 w h0
  rw [sub_self, abs_zero] at this
  have : w - v = 0 := abs_eq_zero.mp (le_antisymm this (abs_nonneg _))
  have : w = v := by linarith
  rw [this]; exact v1

/-- C37, reverse, is not vacuous: a table increasing in both variables and calls for values inside and outside of it. -/
example : ∃ s, Bil.init (fun i => (i : ℚ)) (fun j => (j : ℚ)) (fun i j => (i : ℚ) + j * j) 2 4 0 1 0 3
      Bil.new = .ok s ∧ Regular (fun i => (i : ℚ)) 2 ∧ Regular (fun j => (j : ℚ)) 4 ∧
    (∃ i < 2, ∃ j < 4, (i ≠ place (fun i => (i : ℚ)) 2 0 ∨ j ≠ place (fun j => (j : ℚ)) 4 0) ∧
      ((place (fun i => (i : ℚ)) 2 0 : Nat) : ℚ) + ((place (fun j => (j : ℚ)) 4 0 : Nat) : ℚ) * ((place (fun j => (j : ℚ)) 4 0 : Nat) : ℚ) ≤ (i : ℚ) + j * j) ∧
    (runCalls Bil.callReverse [.get 0 (5 / 2), .exact (1 / 2) 9, .get 1 100, .exact 0 100, .get 1 0] s.initReverse).map
      Prod.fst = some [some (3 / 2), some (29 / 10), some 3, none, some 0] := by
  obtain ⟨s, h1, h2⟩ := ok_of (r := Bil.init (fun i : Nat => (i : ℚ)) (fun j => (j : ℚ)) (fun i j => (i : ℚ) + j * j)
      2 4 0 1 0 3 Bil.new)
    (P := fun s => (runCalls Bil.callReverse [.get 0 (5 / 2), .exact (1 / 2) 9, .get 1 100, .exact 0 100, .get 1 0]
      s.initReverse).map Prod.fst = some [some (3 / 2), some (29 / 10), some 3, none, some 0]) (by decide +kernel)
  exact ⟨s, h1, Or.inl (by norm_num), Or.inl (by norm_num),
    ⟨1, by omega, 0, by omega, by decide +kernel, by decide +kernel⟩, h2⟩

/-- C37 fails for the reverse interpolator: a table that decreases in both variables. The greatest value is never
recorded, so every value is taken for the least one, and the answer is always the end of the table. -/
theorem c37_reverse_wrong : ∃ s, Bil.init (fun i => (i : ℚ)) (fun j => (j : ℚ)) (fun i j => 10 - 10 * (i : ℚ) - 2 * j) 2 3
      0 1 0 2 Bil.new = .ok s ∧
    (runCalls Bil.callReverse [.get 0 10, .get 0 8, .exact 0 8] s.initReverse).map Prod.fst =
      some [some 2, some 2, none] ∧
    IsBiInterp (fun i => (i : ℚ)) (fun j => (j : ℚ)) (fun i j => 10 - 10 * (i : ℚ) - 2 * j) 2 3 0 0 10 := by
  obtain ⟨s, h1, h2⟩ := ok_of (r := Bil.init (fun i : Nat => (i : ℚ)) (fun j => (j : ℚ))
      (fun i j => 10 - 10 * (i : ℚ) - 2 * j) 2 3 0 1 0 2 Bil.new)
    (P := fun s => (runCalls Bil.callReverse [.get 0 10, .get 0 8, .exact 0 8] s.initReverse).map Prod.fst =
      some [some 2, some 2, none]) (by decide +kernel)
  refine ⟨s, h1, h2, (isBiInterp_section (i := 0) (fun i _ => by simp) (by omega) (by simp) (by simp)).mpr ?_⟩
  exact isInterp_of_cell (c := 0) (fun i _ => by simp) (by omega) (by simp) (by simp) (by norm_num [line])

end Gunns.Props
