import Verif.Math.BrentLemmas
import Mathlib.Topology.Order.IntermediateValue
import Mathlib.Topology.Instances.Real.Lemmas
import Mathlib.Topology.Order.OrderClosed

/-!
# C38: Brent's method
-/

set_option linter.unusedSectionVars false

namespace Gunns.Props

open Gunns.Brent

variable {K : Type _} [Field K] [LinearOrder K] [IsStrictOrderedRing K]

/-- C38: the bracketing exception is thrown exactly if the values at the ends have the same sign; otherwise a result is
returned after at most 100 iterations, or the convergence exception is thrown. No division by zero happens. -/
theorem c38_outcomes (f : K → K) (x1 x2 tol : K) (ht : 0 ≤ tol) :
    (0 < f x1 * f x2 → solve f x1 x2 tol = .notBracketed) ∧
    (f x1 * f x2 ≤ 0 → (∃ x i, solve f x1 x2 tol = .found x i ∧ 1 ≤ i ∧ i ≤ 100) ∨
      solve f x1 x2 tol = .noConvergence) := by
  constructor
  · intro h
    unfold solve
    rw [if_pos]
    rcases mul_pos_iff.mp h with h | h
    · exact Or.inl h
    · exact Or.inr h
  · intro h
    have hs : ¬ sameSign (f x1) (f x2) := by
      rintro (⟨h1, h2⟩ | ⟨h1, h2⟩)
      · exact absurd h (not_le.mpr (mul_pos h1 h2))
      · exact absurd h (not_le.mpr (mul_pos_of_neg_of_neg h1 h2))
    unfold solve
    rw [if_neg hs]
    rcases iterate_spec ht 100 1 (fits_start f x1 x2) hs with ⟨x, i, e, e1, e2, _⟩ | e
    · exact Or.inl ⟨x, i, e, e1, by omega⟩
    · exact Or.inr e

/-- C38: a result is in the interval; it is a root, or the function has the opposite sign (or a root) at a point of the
interval no further away than the tolerance, at which its value is at least as large. -/
theorem c38_bracket {f : K → K} {x1 x2 tol x : K} {i : Nat} (ht : 0 ≤ tol) (h : solve f x1 x2 tol = .found x i) :
    (min x1 x2 ≤ x ∧ x ≤ max x1 x2) ∧
    (f x = 0 ∨ ∃ c, (min x1 x2 ≤ c ∧ c ≤ max x1 x2) ∧ f x * f c ≤ 0 ∧ |f x| ≤ |f c| ∧
      |c - x| ≤ tol + 4 * dblEps * |x|) := by
  unfold solve at h
  split_ifs at h with hs
  rcases iterate_spec ht 100 1 (fits_start f x1 x2) hs with ⟨y, j, e, _, _, hg⟩ | e
  · rw [e] at h
    injection h with h1 h2
    subst h1
    refine ⟨hg.1, hg.2.imp id ?_⟩
    rintro ⟨c, c1, c2, c3, c4⟩
    refine ⟨c, c1, not_sameSign_mul c2, c3, ?_⟩
    unfold tolOf at c4
    linarith
  · rw [e] at h
    cases h

/-- C38: for a continuous function a result is within the tolerance of a root in the interval. -/
theorem c38_root {f : ℝ → ℝ} {x1 x2 tol x : ℝ} {i : Nat} (ht : 0 ≤ tol)
    (hf : ContinuousOn f (Set.uIcc x1 x2)) (h : solve f x1 x2 tol = .found x i) :
    ∃ r ∈ Set.uIcc x1 x2, f r = 0 ∧ |x - r| ≤ tol + 4 * dblEps * |x| := by
  obtain ⟨hx, hr⟩ := c38_bracket ht h
  have hx' : x ∈ Set.uIcc x1 x2 := hx
  have hpos : 0 ≤ tol + 4 * dblEps * |x| := by
    have h1 : (0 : ℝ) < dblEps := dblEps_pos
    have := mul_nonneg h1.le (abs_nonneg x)
    linarith
  rcases hr with hr | ⟨c, hc, hm, _, hd⟩
  · exact ⟨x, hx', hr, by rw [sub_self, abs_zero]; exact hpos⟩
  · have hc' : c ∈ Set.uIcc x1 x2 := hc
    have hsub : Set.uIcc x c ⊆ Set.uIcc x1 x2 := Set.uIcc_subset_uIcc hx' hc'
    have hz : (0 : ℝ) ∈ Set.uIcc (f x) (f c) := by
      rw [Set.mem_uIcc]
      rcases le_total 0 (f x) with h1 | h1
      · rcases eq_or_lt_of_le h1 with h2 | h2
        · rcases le_total 0 (f c) with h3 | h3
          · left; exact ⟨h2.ge, h3⟩
          · right; exact ⟨h3, h2.le⟩
        · right
          exact ⟨by
            by_contra h3
            push Not at h3
            exact absurd hm (not_le.mpr (mul_pos h2 h3)), h1⟩
      · rcases eq_or_lt_of_le h1 with h2 | h2
        · rcases le_total 0 (f c) with h3 | h3
          · left; exact ⟨h2.le, h3⟩
          · right; exact ⟨h3, h2.ge⟩
        · left
          exact ⟨h1, by
            by_contra h3
            push Not at h3
            exact absurd hm (not_le.mpr (mul_pos_of_neg_of_neg h2 h3))⟩
    obtain ⟨r, hr1, hr2⟩ := intermediate_value_uIcc (hf.mono hsub) hz
    refine ⟨r, hsub hr1, hr2, ?_⟩
    have : |r - x| ≤ |c - x| := Set.abs_sub_left_of_mem_uIcc hr1
    rw [abs_sub_comm x r]
    exact this.trans hd

/-- C38: the function is evaluated only in the interval: what it is elsewhere has no effect. -/
theorem c38_inside {f g : K → K} {x1 x2 tol : K} (ht : 0 ≤ tol)
    (hfg : ∀ x, min x1 x2 ≤ x → x ≤ max x1 x2 → f x = g x) : solve f x1 x2 tol = solve g x1 x2 tol := by
  have e1 := hfg x1 (min_le_left _ _) (le_max_left _ _)
  have e2 := hfg x2 (min_le_right _ _) (le_max_right _ _)
  unfold solve
  rw [← e1, ← e2]
  split_ifs with hs
  · rfl
  · exact iterate_congr hfg ht 100 1 (fits_start f x1 x2) hs

/-- C38: where the next trial is.  With `b` the best point, `c` the other end of the bracket and `a` the point before, an
iteration steps by `d` from `b`, but by no less than the tolerance, towards `c`.  `d` is half of the way to `c`, or it leads
to the zero of the secant (if `a` is `c`) or to the value at zero of the quadratic in `y` through the three points
`(f a, a)`, `(f b, b)`, `(f c, c)`; this only if it is shorter than half of the step before the last one. -/
theorem c38_trial {f : K → K} {tol : K} {s0 s1 : St K} (h : turn f tol s0 = some (.inr s1)) :
    let s := exchange (rename s0);
    let t := 2 * dblEps * |s.b| + tol / 2;
    (s1.a = s.b ∧ s1.c = s.c ∧ s1.fa = s.fb ∧ s1.fb = f s1.b ∧ s1.fc = s.fc) ∧
    (t < |s1.d| → s1.b = s.b + s1.d) ∧
    (|s1.d| ≤ t → (s.b < s.c → s1.b = s.b + t) ∧ (s.c < s.b → s1.b = s.b - t)) ∧
    ((s1.d = (s.c - s.b) / 2 ∧ s1.e = s1.d) ∨
     (s1.e = s.d ∧ 2 * |s1.d| < |s.e| ∧ s.fa ≠ s.fb ∧
      (s.a = s.c → s1.d = -s.fb * (s.a - s.b) / (s.fa - s.fb)) ∧
      (s.a ≠ s.c → s.fb ≠ s.fc ∧ s.fa ≠ s.fc ∧ ∀ α β γ, α + β * s.fa + γ * s.fa ^ 2 = s.a →
        α + β * s.fb + γ * s.fb ^ 2 = s.b → α + β * s.fc + γ * s.fc ^ 2 = s.c → s.b + s1.d = α))) := by
  intro s t
  have ht : t = tolOf tol s.b := by
    change 2 * dblEps * |s.b| + tol / 2 = 2 * dblEps * |s.b| + 1 / 2 * tol
    ring
  unfold turn at h
  dsimp only at h
  rw [ht]
  change (if |1 / 2 * (s.c - s.b)| ≤ tolOf tol s.b ∨ 0 = s.fb then _ else _) = _ at h
  by_cases hstop : |1 / 2 * (s.c - s.b)| ≤ tolOf tol s.b ∨ 0 = s.fb
  · rw [if_pos hstop] at h
    simp at h
  rw [if_neg hstop] at h
  revert h
  change (match stepOf (tolOf tol s.b) (1 / 2 * (s.c - s.b)) s with
    | none => none
    | some (d, e) => some (Sum.inr { a := s.b, b := trial (tolOf tol s.b) (1 / 2 * (s.c - s.b)) s.b d, c := s.c, d := d
                                     e := e, fa := s.fb, fb := f (trial (tolOf tol s.b) (1 / 2 * (s.c - s.b)) s.b d)
                                     fc := s.fc }) : Option (K ⊕ St K)) = _ → _
  cases hst : stepOf (tolOf tol s.b) (1 / 2 * (s.c - s.b)) s with
  | none => intro h; cases h
  | some de =>
    obtain ⟨d, e⟩ := de
    intro h
    simp only [Option.some.injEq, Sum.inr.injEq] at h
    subst h
    dsimp only
    refine ⟨⟨rfl, rfl, rfl, rfl, rfl⟩, fun h => ?_, fun h => ⟨fun hc => ?_, fun hc => ?_⟩, ?_⟩
    · unfold trial
      rw [if_pos h]
    · unfold trial
      rw [if_neg (not_lt.mpr h), if_pos (by linarith)]
    · unfold trial
      rw [if_neg (not_lt.mpr h), if_neg (by intro h; linarith)]
    · rcases stepOf_cases hst with ⟨h1, h2⟩ | ⟨h1, h2, p, q, h3, h4, h5⟩
      · exact Or.inl ⟨by rw [h1]; ring, by rw [h1, h2]⟩
      · obtain ⟨k1, k2, k3⟩ := quotient_meaning h3 h4
        rw [h5]
        rw [h5] at h2
        exact Or.inr ⟨h1, h2, k1, k2, k3⟩

/-- C38: a linear function with a bracketed root is solved by the second iteration. -/
theorem c38_linear {m k x1 x2 tol : K} (hm : m ≠ 0) (ht : 0 ≤ tol) (h : (m * x1 + k) * (m * x2 + k) ≤ 0) :
    ∃ x i, solve (fun x => m * x + k) x1 x2 tol = .found x i ∧ i ≤ 2 := solve_linear hm ht h

/-- C38 is not vacuous: the root 2 of `x * x - 4` between 0 and 5. -/
example : ∃ x i, solve (fun x : ℚ => x * x - 4) 0 5 (1 / 1000) = .found x i ∧ i = 8 ∧ |x - 2| < 1 / 1000 := by
  have : (match solve (fun x : ℚ => x * x - 4) 0 5 (1 / 1000) with
    | .found x i => decide (i = 8 ∧ |x - 2| < 1 / 1000)
    | _ => false) = true := by decide +kernel
  revert this
  cases solve (fun x : ℚ => x * x - 4) 0 5 (1 / 1000) with
  | found x i => intro h; exact ⟨x, i, rfl, of_decide_eq_true h⟩
  | notBracketed => intro h; cases h
  | noConvergence => intro h; cases h
  | divZero => intro h; cases h

/-- An iteration that interpolates with three different points, accepted. -/
example : (match turn (fun x : ℚ => x * x - 4) 0 { a := 3, b := 5 / 2, c := 1, d := -1 / 2, e := -2, fa := 5, fb := 9 / 4, fc := -3 } with
    | some (.inr s1) => decide (s1.e = -1 / 2 ∧ 1.9 < s1.b ∧ s1.b < 2.1)
    | _ => false) = true := by decide +kernel

/-- C38, limit: 100 iterations are not enough for a function with a jump in a long interval. -/
theorem c38_gives_up : solve (fun x : ℚ => if x ≤ 0 then -1 else 1) (-1) (2 ^ 120) 1 = .noConvergence := by
  have : (match solve (fun x : ℚ => if x ≤ 0 then -1 else 1) (-1) (2 ^ 120) 1 with
    | .noConvergence => true
    | _ => false) = true := by decide +kernel
  revert this
  cases solve (fun x : ℚ => if x ≤ 0 then -1 else 1) (-1) (2 ^ 120) 1 with
  | found x i => intro h; cases h
  | notBracketed => intro h; cases h
  | noConvergence => intro _; rfl
  | divZero => intro h; cases h

end Gunns.Props
