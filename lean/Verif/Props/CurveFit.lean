import Mathlib.Tactic.Linarith
import Mathlib.Tactic.Ring
import Mathlib.Tactic.FieldSimp
import Mathlib.Tactic.NormNum
import Verif.Math.CurveFit

/-!
# C109: curve fits
-/

set_option linter.unusedSectionVars false

namespace Gunns.Props

open Gunns Gunns.CurveFit
open Gunns.Interp (limitRange)

private theorem limit_in {lo hi : ℝ} (h : lo < hi) (x : ℝ) : lo ≤ limitRange lo x hi ∧ limitRange lo x hi ≤ hi := by
  unfold limitRange
  exact ⟨le_max_right _ _, max_le (min_le_right _ _) h.le⟩

private theorem limit_same {lo hi x : ℝ} (h1 : lo ≤ x) (h2 : x ≤ hi) : limitRange lo x hi = x := by
  unfold limitRange
  rw [min_eq_left h2, max_eq_left h1]

/-- A fit is only used within its limits: the result is that at the point of the range nearest to the arguments, and a call with exceptions gives that result
within the limits, and throws just outside. -/
theorem c109_range {r : Range} {old : ℝ × ℝ} {f : Fit} (h : accepts r old f) (x y : ℝ) :
    (∃ u v, (r.minX ≤ u ∧ u ≤ r.maxX) ∧ (r.minY ≤ v ∧ v ≤ r.maxY) ∧ get r f x y = eval u v f
        ∧ (∀ z, r.minX ≤ z → z ≤ r.maxX → |x - u| ≤ |x - z|) ∧ ∀ z, r.minY ≤ z → z ≤ r.maxY → |y - v| ≤ |y - z|)
      ∧ (getExceptional r f x y = none ↔ ¬ ((r.minX ≤ x ∧ x ≤ r.maxX) ∧ (r.minY ≤ y ∧ y ≤ r.maxY)))
      ∧ ∀ o, getExceptional r f x y = some o → o = get r f x y := by
  have near : ∀ lo hi z : ℝ, lo < hi → ∀ w, lo ≤ w → w ≤ hi → |z - limitRange lo z hi| ≤ |z - w| := fun lo hi z hlh w h1 h2 => by
    unfold limitRange
    rcases le_total z hi with hz | hz
    · rw [min_eq_left hz]
      rcases le_total lo z with hz' | hz'
      · rw [max_eq_left hz', sub_self, abs_zero]
        exact abs_nonneg _
      · rw [max_eq_right hz', abs_of_nonpos (by linarith), abs_of_nonpos (by linarith)]
        linarith
    · rw [min_eq_right hz, max_eq_left hlh.le, abs_of_nonneg (by linarith), abs_of_nonneg (by linarith)]
      linarith
  refine ⟨⟨limitRange r.minX x r.maxX, limitRange r.minY y r.maxY, limit_in h.1.1 x, limit_in h.1.2 y, rfl, near _ _ _ h.1.1, near _ _ _ h.1.2⟩, ?_, ?_⟩
  · unfold getExceptional
    by_cases h1 : x < r.minX ∨ r.maxX < x
    · rw [if_pos h1]
      simp only [true_iff]
      rintro ⟨⟨a, b⟩, -⟩
      rcases h1 with h1 | h1 <;> linarith
    · rw [if_neg h1]
      by_cases h2 : y < r.minY ∨ r.maxY < y
      · rw [if_pos h2]
        simp only [true_iff]
        rintro ⟨-, a, b⟩
        rcases h2 with h2 | h2 <;> linarith
      · rw [if_neg h2]
        rw [not_or, not_lt, not_lt] at h1 h2
        simp [h1, h2]
  · intro o ho
    unfold getExceptional at ho
    by_cases h1 : x < r.minX ∨ r.maxX < x
    · rw [if_pos h1] at ho
      cases ho
    · rw [if_neg h1] at ho
      by_cases h2 : y < r.minY ∨ r.maxY < y
      · rw [if_pos h2] at ho
        cases ho
      · rw [if_neg h2] at ho
        rw [not_or, not_lt, not_lt] at h1 h2
        rw [← Option.some.inj ho]
        unfold CurveFit.get
        rw [limit_same h1.1 h1.2, limit_same h2.1 h2.2]

private theorem away {lo hi eps u : ℝ} (he : 0 < eps) (h : ¬ (lo < eps ∧ -eps < hi)) (h1 : lo ≤ u) (h2 : u ≤ hi) : u ≠ 0 := by
  rintro rfl
  exact h ⟨by linarith, by linarith⟩

/-- An accepted polynomial, product, inverse, quotient, exponential, Shomate or power of a positive number has a value for all arguments. -/
theorem c109_defined {r : Range} {old : ℝ × ℝ} {f : Fit} (h : accepts r old f)
    (hf : match f with
      | .poly _ | .product _ | .quadLin .. | .invLinear .. | .invQuadratic .. | .exponential .. | .shomate .. | .quotient _ => True
      | .power _ b => 0 < b
      | _ => False) (x y : ℝ) : (CurveFit.get r f x y).isSome = true := by
  obtain ⟨hx1, hx2⟩ := limit_in h.1.1 x
  have hd : (0 : ℝ) < dblEps := dblEps_pos
  have hfl : (0 : ℝ) < fltEps := fltEps_pos
  have h2 := h.2
  unfold CurveFit.get
  generalize limitRange r.minX x r.maxX = u at hx1 hx2 ⊢
  generalize limitRange r.minY y r.maxY = v
  cases f with
  | poly l => rfl
  | product a => rfl
  | quadLin a b c d e f => rfl
  | power a b =>
    have hb : 0 < b := hf
    have e : eval u v (.power a b) = some (a * b ^ u) := if_neg (by rintro (h' | ⟨h', -⟩) <;> linarith)
    rw [e]
    rfl
  | invLinear a b c =>
    have hu := away hd h2 hx1 hx2
    simp [eval, quot, hu]
  | invQuadratic a b c =>
    have hu := away hd h2 hx1 hx2
    simp [eval, quot, hu]
  | exponential a b c =>
    have hu := away hd h2 hx1 hx2
    simp [eval, quot, hu]
  | shomate a b c d e =>
    have hu := away hd h2 hx1 hx2
    simp [eval, quot, hu]
  | quotient a =>
    have hu := away hfl h2 hx1 hx2
    simp [eval, quot, hu]
  | quadLinInv a b c d e f => exact absurd hf id
  | rational a b c d => exact absurd hf id
  | sutherland a b => exact absurd hf id
  | root a b => exact absurd hf id

/-- The nested products of a polynomial are the sum of the coefficients times the powers. -/
theorem c109_poly (l : List ℝ) (x y : ℝ) : eval x y (.poly l) = some (∑ k : Fin l.length, l.get k * x ^ (k : ℕ)) := by
  show some _ = _
  congr 1
  induction l with
  | nil => simp
  | cons a l ih =>
    rw [List.foldr_cons, ih]
    simp only [List.length_cons]
    rw [Fin.sum_univ_succ, Finset.sum_mul]
    simp only [List.get_eq_getElem, Fin.val_zero, pow_zero, mul_one, Fin.val_succ, pow_succ]
    congr 1
    refine Finset.sum_congr rfl fun k _ => ?_
    simp
    ring

/-- The inverses undo their fits: the one of two variables in its second one, the root in its variable. -/
theorem c109_inverse (a b c d e f x y : ℝ) (hd : b + (d + f * x) * x ≠ 0) :
    (eval x y (.quadLin a b c d e f)).bind (fun z => eval x z (.quadLinInv a b c d e f)) = some y
      ∧ ((eval x y (.quadLinInv a b c d e f)).bind fun z => eval x z (.quadLin a b c d e f)) = some y
      ∧ ∀ p q t, eval t 0 (.root p q) = some y → eval y 0 (.poly [0, p, q]) = some t := by
  refine ⟨?_, ?_, ?_⟩
  · show quot _ _ = _
    unfold quot
    rw [if_neg hd]
    congr 1
    rw [div_eq_iff hd]
    ring
  · show (quot _ _).bind _ = _
    unfold quot
    rw [if_neg hd]
    show some _ = _
    congr 1
    have e1 : ∀ q : ℝ, (a + b * q) + ((c + d * q) + (e + f * q) * x) * x = a + (c + e * x) * x + q * (b + (d + f * x) * x) := fun q => by ring
    rw [e1, div_mul_cancel₀ _ hd]
    ring
  · intro p q t h
    have h : (CurveFit.root (p * p + 4 * q * t)).bind (fun r => (quot (1 / 2) q).map fun k => (-p + r) * k) = some y := h
    unfold CurveFit.root quot at h
    by_cases h1 : p * p + 4 * q * t < 0
    · rw [if_pos h1] at h
      cases h
    · rw [if_neg h1] at h
      by_cases h2 : q = 0
      · rw [if_pos h2] at h
        cases h
      · rw [if_neg h2] at h
        have h3 : (-p + Real.sqrt (p * p + 4 * q * t)) * (1 / 2 / q) = y := Option.some.inj h
        show some _ = some _
        congr 1
        have h4 := Real.mul_self_sqrt (not_lt.mp h1)
        generalize Real.sqrt (p * p + 4 * q * t) = s at h3 h4
        have h5 : s = 2 * q * y + p := by
          rw [← h3]
          field_simp
          ring
        rw [h5] at h4
        have h6 : 4 * q * (q * y ^ 2 + p * y - t) = 0 := by linarith
        have h7 : q * y ^ 2 + p * y - t = 0 := by
          rcases mul_eq_zero.mp h6 with h8 | h8
          · exact absurd (by linarith) h2
          · exact h8
        simp only [List.foldr_cons, List.foldr_nil]
        linarith

/-- Where the others have a value: no zero of the denominator, no root of a negative number. -/
theorem c109_where (x y a b c d e f : ℝ) :
    ((eval x y (.rational a b c d)).isSome = true ↔ 1 + c * x + d * x ^ 2 ≠ 0)
      ∧ ((eval x y (.quadLinInv a b c d e f)).isSome = true ↔ b + d * x + f * x ^ 2 ≠ 0)
      ∧ ((eval x y (.sutherland a b)).isSome = true ↔ 0 ≤ x ∧ x ≠ -b)
      ∧ ((eval x y (.root a b)).isSome = true ↔ 0 ≤ a ^ 2 + 4 * b * x ∧ b ≠ 0) := by
  have q : ∀ u v : ℝ, (quot u v).isSome = true ↔ v ≠ 0 := fun u v => by
    unfold quot
    by_cases hv : v = 0 <;> simp [hv]
  refine ⟨?_, ?_, ?_, ?_⟩
  · show (quot _ _).isSome = true ↔ _
    rw [q, show 1 + (c + d * x) * x = 1 + c * x + d * x ^ 2 by ring]
  · show (quot _ _).isSome = true ↔ _
    rw [q, show b + (d + f * x) * x = b + d * x + f * x ^ 2 by ring]
  · have hx : x * x * x < 0 ↔ x < 0 := by
      have e3 : x * x * x = x ^ 3 := by ring
      rw [e3]
      exact Odd.pow_neg_iff (by decide)
    show ((CurveFit.root (x * x * x)).bind fun r => quot (a * r) (b + x)).isSome = true ↔ _
    unfold CurveFit.root
    by_cases h0 : x < 0
    · rw [if_pos (hx.mpr h0)]
      simp only [Option.bind_none, Option.isSome_none, Bool.false_eq_true, false_iff]
      exact fun hc => absurd hc.1 (not_le.mpr h0)
    · rw [if_neg (fun hc => h0 (hx.mp hc))]
      simp only [Option.bind_some]
      rw [q]
      exact ⟨fun hc => ⟨not_lt.mp h0, fun he => hc (by linarith)⟩, fun hc he => hc.2 (by linarith)⟩
  · show ((CurveFit.root (a * a + 4 * b * x)).bind fun r => (quot (1 / 2) b).map fun q => (-a + r) * q).isSome = true ↔ _
    unfold CurveFit.root
    rw [sq]
    by_cases h0 : a * a + 4 * b * x < 0
    · rw [if_pos h0]
      simp only [Option.bind_none, Option.isSome_none, Bool.false_eq_true, false_iff]
      exact fun hc => absurd hc.1 (not_le.mpr h0)
    · rw [if_neg h0]
      simp only [Option.bind_some, Option.isSome_map]
      rw [q]
      exact ⟨fun hc => ⟨not_lt.mp h0, hc⟩, fun hc => hc.2⟩

private theorem sqrt_one' : Real.sqrt ((-1) * (-1) - 4 * 0) = 1 := by
  rw [show (-1 : ℝ) * (-1) - 4 * 0 = 1 by norm_num, Real.sqrt_one]

private theorem sqrt_one'' : Real.sqrt (1 * 1 - 4 * 0) = 1 := by
  rw [show (1 : ℝ) * 1 - 4 * 0 = 1 by norm_num, Real.sqrt_one]

/-- The rational fit `1 / (1 - x)` is accepted with its pole in the range, and rejected over a range that has none. -/
theorem c109_rational : let f := Fit.rational 1 0 (-1) 0
    accepts (oneVariable (4 / 5) (6 / 5) dblEps) (0, 0) f ∧ CurveFit.get (oneVariable (4 / 5) (6 / 5) dblEps) f 1 0 = none
      ∧ ¬ accepts (oneVariable (7 / 5) (8 / 5) dblEps) (0, 0) f ∧ ∀ x, (CurveFit.get (oneVariable (7 / 5) (8 / 5) dblEps) f x 0).isSome = true := by
  have hd : (dblEps : ℝ) < 1 / 10 := by unfold dblEps; norm_num
  have hd0 : (0 : ℝ) < dblEps := dblEps_pos
  refine ⟨⟨⟨by show (4 / 5 : ℝ) < 6 / 5; norm_num, by show -dblEps < (dblEps : ℝ); linarith⟩, ?_⟩, ?_, ?_, fun x => ?_⟩
  · show poleFree (4 / 5) (6 / 5) dblEps (-1) 0
    unfold poleFree near
    simp only
    rw [if_pos (by norm_num; linarith), sqrt_one']
    refine ⟨fun hc => ?_, fun hc => ?_⟩
    · linarith [hc.2]
    · linarith [hc.1]
  · unfold CurveFit.get oneVariable
    rw [limit_same (by norm_num) (by norm_num)]
    show quot _ _ = none
    exact if_pos (by norm_num)
  · rintro ⟨-, h⟩
    have h : poleFree (7 / 5) (8 / 5) dblEps (-1) 0 := h
    unfold poleFree near at h
    simp only at h
    rw [if_pos (by norm_num; linarith), sqrt_one'] at h
    exact h.1 ⟨by linarith, by linarith⟩
  · unfold CurveFit.get oneVariable
    have hx := limit_in (show (7 / 5 : ℝ) < 8 / 5 by norm_num) x
    simp only
    rw [(c109_where _ _ 1 0 (-1) 0 0 0).1]
    intro hc
    linarith [hx.1]

/-- The inverse of two variables is accepted with a zero of its denominator in the range. -/
theorem c109_quadLinInv : let f := Fit.quadLinInv 0 (-1) 0 1 0 0
    accepts ⟨1 / 2, 3 / 2, 0, 1⟩ (0, 0) f ∧ CurveFit.get ⟨1 / 2, 3 / 2, 0, 1⟩ f 1 1 = none := by
  have hd : (fltEps : ℝ) < 1 / 10 := by unfold fltEps; norm_num
  have hd0 : (0 : ℝ) < fltEps := fltEps_pos
  refine ⟨⟨⟨by show (1 / 2 : ℝ) < 3 / 2; norm_num, by show (0 : ℝ) < 1; norm_num⟩, ?_⟩, ?_⟩
  · show poleFree (1 / 2) (3 / 2) fltEps 1 0
    unfold poleFree near
    simp only
    rw [if_pos (by norm_num; linarith), sqrt_one'']
    refine ⟨fun hc => ?_, fun hc => ?_⟩
    · linarith [hc.1]
    · linarith [hc.1]
  · unfold CurveFit.get
    rw [limit_same (by norm_num) (by norm_num)]
    show quot _ _ = none
    exact if_pos (by norm_num)

/-- The Sutherland fit `x ^ (3 / 2) / (b + x)` is checked with the wrong sign at the upper limit: every one with its pole `-b` in the range is accepted, if only the upper
limit is more than `b`. -/
theorem c109_sutherland (a b lo hi : ℝ) (h : lo < hi) (hb : b + dblEps ≤ hi) (h1 : lo ≤ -b) (h2 : -b ≤ hi) :
    accepts (oneVariable lo hi dblEps) (0, 0) (.sutherland a b) ∧ CurveFit.get (oneVariable lo hi dblEps) (.sutherland a b) (-b) 0 = none := by
  have hd0 : (0 : ℝ) < dblEps := dblEps_pos
  refine ⟨⟨⟨h, by show -dblEps < (dblEps : ℝ); linarith⟩, ?_⟩, ?_⟩
  · show ¬ (b + lo < dblEps ∧ -dblEps < b - hi)
    rintro ⟨-, hc⟩
    linarith
  · unfold CurveFit.get oneVariable
    simp only
    rw [limit_same h1 h2]
    have := (c109_where (-b) (limitRange (-dblEps) 0 dblEps) a b 0 0 0 0).2.2.1
    rw [← Option.not_isSome_iff_eq_none, this]
    exact fun hc => hc.2 rfl

/-- The root fit is checked with the members it had before: after the default constructor every range is accepted, also one where no argument has a value; and
with the members of its own arguments such a range still is. -/
theorem c109_root (a b lo hi : ℝ) (h : lo < hi) (hb : dblEps ≤ |b|) :
    accepts (oneVariable lo hi fltEps) (0, 0) (.root a b)
      ∧ (0 < b → hi < -a ^ 2 / (4 * b) → accepts (oneVariable lo hi fltEps) (a * a, 4 * b) (.root a b)
          ∧ ∀ x, CurveFit.get (oneVariable lo hi fltEps) (.root a b) x 0 = none) := by
  have hd0 : (0 : ℝ) < fltEps := fltEps_pos
  refine ⟨⟨⟨h, by show -fltEps < (fltEps : ℝ); linarith⟩, not_lt.mpr hb, fun hc => hc.1 rfl⟩, fun hp hh => ⟨⟨⟨h, by show -fltEps < (fltEps : ℝ); linarith⟩, not_lt.mpr hb, ?_⟩, fun x => ?_⟩⟩
  · rintro ⟨-, -, hc⟩
    have hc : -(a * a) / (4 * b) < hi - fltEps := hc
    rw [← sq] at hc
    linarith
  · unfold CurveFit.get oneVariable
    simp only
    have hx := (limit_in h x).2
    rw [← Option.not_isSome_iff_eq_none, (c109_where _ _ a b 0 0 0 0).2.2.2]
    rintro ⟨hc, -⟩
    have h1 : limitRange lo x hi < -a ^ 2 / (4 * b) := lt_of_le_of_lt hx hh
    rw [lt_div_iff₀ (by linarith)] at h1
    linarith

example : accepts (oneVariable (1 / 2) 2 dblEps) (0, 0) (.sutherland 1 (-1)) ∧ CurveFit.get (oneVariable (1 / 2) 2 dblEps) (.sutherland 1 (-1)) 1 0 = none := by
  have h := c109_sutherland 1 (-1) (1 / 2) 2 (by norm_num) (by have := dblEps_lt_one (K := ℝ); linarith) (by norm_num) (by norm_num)
  rwa [neg_neg] at h

/-- A fit that is accepted and has a value, and one that is rejected. -/
example : accepts (oneVariable 1 2 dblEps) (0, 0) (.invLinear 1 2 3) ∧ ¬ accepts (oneVariable (-1) 2 dblEps) (0, 0) (.invLinear 1 2 3) := by
  have hd0 : (0 : ℝ) < dblEps := dblEps_pos
  have hd1 : (dblEps : ℝ) < 1 := dblEps_lt_one
  refine ⟨⟨⟨by show (1 : ℝ) < 2; norm_num, by show -dblEps < (dblEps : ℝ); linarith⟩, ?_⟩, ?_⟩
  · rintro ⟨hc, -⟩
    have hc : (1 : ℝ) < dblEps := hc
    linarith
  · rintro ⟨-, hc⟩
    exact hc ⟨by show (-1 : ℝ) < dblEps; linarith, by show -dblEps < (2 : ℝ); linarith⟩

end Gunns.Props
