import Verif.Base.Loop
import Verif.Base.Const
import Mathlib.Analysis.SpecialFunctions.Pow.Complex
import Mathlib.Analysis.SpecialFunctions.Complex.Log
import Mathlib.Analysis.Complex.Norm

/-!
# Laguerre's method

Model of `ms-utils/math/root_finding/LaguerreMethod.cpp`.

Simplifications: `std::complex<double>` is ℂ, so nothing overflows and nothing is rounded; `std::sqrt` is the principal
square root; the thrown exception is `none`.  The array of coefficients is a function; only its first `m + 1` values are used.
-/

namespace Gunns.Laguerre

/-- `std::sqrt` of a complex number: the principal square root. -/
noncomputable def csqrt (z : ℂ) : ℂ := z ^ (2⁻¹ : ℂ)

/-- The variables of the evaluation loop (LaguerreMethod.cpp:54-57): `f` is half the second derivative, `d` the first, `b` the
value and `err` the bound on the rounding. -/
structure Eval where
  f : ℂ
  d : ℂ
  b : ℂ
  err : ℝ

/-- The loop body for one `j` (lines 61-66). -/
noncomputable def horner (c : ℕ → ℂ) (x : ℂ) (j : ℕ) (s : Eval) : Eval :=
  { f := x * s.f + s.d
    d := x * s.d + s.b
    b := x * s.b + c j
    err := ‖x * s.b + c j‖ + ‖x‖ * s.err }

/-- The evaluation of the polynomial of order `m` at `x` (lines 54-66): `j` runs from `m - 1` down to 0.  `err` is not yet
multiplied by DBL_EPSILON. -/
noncomputable def evaluate (c : ℕ → ℂ) (m : ℕ) (x : ℂ) : Eval :=
  loop (fun k s => horner c x (m - 1 - k) s) m { f := 0, d := 0, b := c m, err := ‖c m‖ }

/-- The table of fractions (line 47). -/
noncomputable def frac : ℕ → ℝ
  | 0 => 0
  | 1 => 1 / 2
  | 2 => 1 / 4
  | 3 => 3 / 4
  | 4 => 13 / 100
  | 5 => 38 / 100
  | 6 => 62 / 100
  | 7 => 88 / 100
  | _ => 1

/-- Laguerre's formula for the denominator (lines 75-85): of `g + sq` and `g - sq` the greater in absolute value. -/
noncomputable def denominator (m : ℕ) (g h : ℂ) : ℂ :=
  let sq := csqrt (((m : ℂ) - 1) * ((m : ℂ) * h - g * g))
  if ‖g + sq‖ < ‖g - sq‖ then g - sq else g + sq

/-- The correction `dx` (lines 74-91). -/
noncomputable def correction (m iter : ℕ) (x : ℂ) (s : Eval) : ℂ :=
  let g := s.d / s.b
  let h := g * g - 2 * s.f / s.b
  let sq := csqrt (((m : ℂ) - 1) * ((m : ℂ) * h - g * g))
  if 0 < max ‖g + sq‖ ‖g - sq‖ then (m : ℂ) / denominator m g h
  else ((1 + ‖x‖ : ℝ) : ℂ) * Complex.exp ((iter : ℂ) * Complex.I)

open Classical in
/-- One pass of the loop over the iterations (lines 53-103): `inl` is a return with this root, `inr` the next estimate. -/
noncomputable def pass (c : ℕ → ℂ) (m iter : ℕ) (x : ℂ) : ℂ ⊕ ℂ :=
  let s := evaluate c m x
  if ‖s.b‖ ≤ s.err * dblEps then .inl x
  else
    let dx := correction m iter x s
    if x = x - dx then .inl x
    else if iter % 10 ≠ 0 then .inr (x - dx)
    else .inr (x - (frac (iter / 10) : ℂ) * dx)

/-- The passes from `iter` on, with `n` of them left (lines 53-108). -/
noncomputable def go (c : ℕ → ℂ) (m : ℕ) : ℕ → ℕ → ℂ → Option (ℕ × ℂ)
  | 0, _, _ => none
  | n + 1, iter, x =>
    match pass c m iter x with
    | .inl r => some (iter, r)
    | .inr y => go c m n (iter + 1) y

/-- `solve` (lines 42-109) for a polynomial of order `m = size - 1`: the number of iterations and the root, or the exception. -/
noncomputable def solve (c : ℕ → ℂ) (m : ℕ) (x : ℂ) : Option (ℕ × ℂ) := go c m 80 1 x

end Gunns.Laguerre
