import Mathlib.Algebra.Order.Field.Basic
import Mathlib.Tactic.Positivity
import Mathlib.Tactic.NormNum

/-!
# Machine constants

`DBL_EPSILON` and `FLT_EPSILON` of IEEE-754, as numbers.
-/

namespace Gunns

variable {K : Type _} [Field K] [LinearOrder K] [IsStrictOrderedRing K]

/-- `DBL_EPSILON`. -/
def dblEps : K := 1 / 2 ^ 52

/-- `static_cast<double>(FLT_EPSILON)`. -/
def fltEps : K := 1 / 2 ^ 23

theorem dblEps_pos : (0 : K) < dblEps := by unfold dblEps; positivity

theorem fltEps_pos : (0 : K) < fltEps := by unfold fltEps; positivity

theorem dblEps_lt_one : (dblEps : K) < 1 := by unfold dblEps; norm_num

theorem fltEps_lt_one : (fltEps : K) < 1 := by unfold fltEps; norm_num

/-- `MsMath::innerLimit(-limit, x, +limit)` (ms-utils/math/MsMath.hh:545-557): values strictly inside of
`(-limit, limit)` go to the bound of their sign, zero to the upper bound. -/
def innerLimit (limit x : K) : K :=
  if -limit < x ∧ x < limit then (if x < (1 / 2) * (limit + -limit) then -limit else limit) else x

omit [IsStrictOrderedRing K] in
theorem innerLimit_of_ge {limit x : K} (h : limit ≤ x) : innerLimit limit x = x := by
  unfold innerLimit
  rw [if_neg (fun c => not_lt.2 h c.2)]

theorem innerLimit_of_abs_ge {limit x : K} (h : limit ≤ |x|) : innerLimit limit x = x := by
  unfold innerLimit
  rw [if_neg]
  rintro ⟨h1, h2⟩
  exact absurd (abs_lt.2 ⟨h1, h2⟩) (not_lt.2 h)

theorem innerLimit_ne_zero {limit : K} (h : 0 < limit) (x : K) : innerLimit limit x ≠ 0 := by
  unfold innerLimit
  split_ifs with h1 h2
  · exact neg_ne_zero.2 h.ne'
  · exact h.ne'
  · intro c
    apply h1
    rw [c]
    exact ⟨neg_lt_zero.2 h, h⟩

end Gunns
