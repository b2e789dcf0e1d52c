import Verif.Fluid.Saturation
import Mathlib.Tactic.Linarith
import Mathlib.Tactic.Ring
import Mathlib.Tactic.FieldSimp
import Mathlib.Tactic.NormNum
import Mathlib.Tactic.Positivity

/-!
# C112: the saturation temperature undoes the saturation pressure

The specification is the equation of the curve, `a + b x + c x² = log10 p` with `x = tc / t`, and
the two round trips.
-/

namespace Gunns.Props

open Gunns.Saturation Gunns.Interp

private theorem c112_c {f : Curve} (h : Accepts f) : f.c ≠ 0 := by
  intro h0
  apply h.2.1
  rw [h0, abs_zero]
  exact dblEps_pos

private theorem c112_log_mono {p q : ℝ} (hp : 0 < p) (h : p ≤ q) :
    Real.logb 10 p ≤ Real.logb 10 q :=
  Real.logb_le_logb_of_le (by norm_num) hp h

private theorem c112_clamp {f : Curve} (h : Accepts f) (p : ℝ) :
    f.minP ≤ limitRange f.minP p f.maxP ∧ limitRange f.minP p f.maxP ≤ f.maxP :=
  ⟨le_max_right _ _, max_le (min_le_right _ _) h.1.le⟩

private theorem c112_disc {f : Curve} (h : Accepts f) (h0 : 0 < f.minP) {p : ℝ} (h1 : f.minP ≤ p)
    (h2 : p ≤ f.maxP) : 0 ≤ disc f p := by
  have d1 := not_lt.1 h.2.2.1
  have d2 := not_lt.1 h.2.2.2.1
  have l1 := c112_log_mono h0 h1
  have l2 := c112_log_mono (h0.trans_le h1) h2
  unfold disc at *
  rcases le_total 0 f.c with hc | hc
  · have := mul_le_mul_of_nonneg_left l1 hc
    nlinarith
  · have := mul_le_mul_of_nonpos_left l2 hc
    nlinarith

private theorem c112_anti {f : Curve} (h : Accepts f) {p q : ℝ} (hp : 0 < p) (hpq : p ≤ q) :
    evaluate f q ≤ evaluate f p := by
  have l := c112_log_mono hp hpq
  unfold evaluate
  rcases lt_or_gt_of_ne (c112_c h) with hc | hc
  · have hd : disc f q ≤ disc f p := by
      have := mul_le_mul_of_nonpos_left l hc.le
      unfold disc
      nlinarith
    have hs := Real.sqrt_le_sqrt hd
    apply mul_le_mul_of_nonpos_right (by linarith)
    exact div_nonpos_of_nonneg_of_nonpos (by norm_num) hc.le
  · have hd : disc f p ≤ disc f q := by
      have := mul_le_mul_of_nonneg_left l hc.le
      unfold disc
      nlinarith
    have hs := Real.sqrt_le_sqrt hd
    apply mul_le_mul_of_nonneg_right (by linarith)
    positivity

/-- The checks at the two limits are enough: at no pressure whatever is there a root of a negative
number or a division by nothing. -/
theorem c112_defined {f : Curve} (h : Accepts f) (h0 : 0 < f.minP) (p : ℝ) :
    0 ≤ disc f (limitRange f.minP p f.maxP) ∧ dblEps ≤ evaluate f (limitRange f.minP p f.maxP) := by
  obtain ⟨h1, h2⟩ := c112_clamp h p
  exact ⟨c112_disc h h0 h1 h2,
    (not_lt.1 h.2.2.2.2.2).trans (c112_anti h (h0.trans_le h1) h2)⟩

/-- The saturation temperature is positive and never falls as the pressure rises. -/
theorem c112_rises {f : Curve} (h : Accepts f) (h0 : 0 < f.minP) (ht : 0 < f.tc) {p q : ℝ}
    (hpq : p ≤ q) : 0 < temperature f p ∧ temperature f p ≤ temperature f q := by
  have e1 := dblEps_pos.trans_le (c112_defined h h0 p).2
  have e2 := dblEps_pos.trans_le (c112_defined h h0 q).2
  refine ⟨div_pos ht e1, ?_⟩
  unfold temperature
  apply div_le_div_of_nonneg_left ht.le e2
  exact c112_anti h (h0.trans_le (c112_clamp h p).1)
    (max_le_max (min_le_min hpq le_rfl) le_rfl)

private theorem c112_root {f : Curve} (hc : f.c ≠ 0) {p : ℝ} (hd : 0 ≤ disc f p) :
    f.a + (f.b + f.c * evaluate f p) * evaluate f p = Real.logb 10 p := by
  have hs := Real.mul_self_sqrt hd
  have he : 2 * f.c * evaluate f p = -f.b - Real.sqrt (disc f p) := by
    unfold evaluate
    field_simp
  have h4 : 4 * f.c * (f.a + (f.b + f.c * evaluate f p) * evaluate f p) =
      4 * f.c * Real.logb 10 p := by
    have : 4 * f.c * (f.a + (f.b + f.c * evaluate f p) * evaluate f p) =
        4 * f.c * f.a + 2 * f.b * (2 * f.c * evaluate f p) + (2 * f.c * evaluate f p) ^ 2 := by ring
    rw [this, he]
    have hs' : Real.sqrt (disc f p) ^ 2 = disc f p := by rw [sq]; exact hs
    have : disc f p = f.b * f.b - 4 * f.c * (f.a - Real.logb 10 p) := rfl
    nlinarith
  exact mul_left_cancel₀ (mul_ne_zero (by norm_num) hc) h4

private theorem c112_pick {f : Curve} (hc : f.c ≠ 0) {p x : ℝ}
    (hx : f.a + (f.b + f.c * x) * x = Real.logb 10 p) :
    (f.b + 2 * f.c * x ≤ 0 → evaluate f p = x) ∧
      (0 ≤ f.b + 2 * f.c * x → evaluate f p = -f.b / f.c - x) := by
  have hd : disc f p = (f.b + 2 * f.c * x) ^ 2 := by
    unfold disc
    rw [← hx]
    ring
  constructor
  · intro h
    unfold evaluate
    rw [hd, Real.sqrt_sq_eq_abs, abs_of_nonpos h]
    field_simp
    ring
  · intro h
    unfold evaluate
    rw [hd, Real.sqrt_sq_eq_abs, abs_of_nonneg h]
    field_simp
    ring

private theorem c112_limit {a x b : ℝ} (h1 : a ≤ x) (h2 : x ≤ b) : limitRange a x b = x := by
  unfold limitRange
  rw [min_eq_left h2, max_eq_left h1]

/-- The pressure at the saturation temperature of a pressure is that pressure, for every pressure
within the limits whose temperature is within those of the other curve. -/
theorem c112_pressure {f : Curve} (h : Accepts f) (h0 : 0 < f.minP) {p : ℝ} (hp1 : f.minP ≤ p)
    (hp2 : p ≤ f.maxP) (htc : 0 < f.tc) (ht : dblEps ≤ temperature f p)
    (h1 : temperature f p ≤ f.tc) (h2 : f.tc / f.maxX ≤ temperature f p) (hm : 1 ≤ f.maxX) :
    pressure f (temperature f p) = p := by
  have hpos : 0 < p := h0.trans_le hp1
  have ee : temperature f p = f.tc / evaluate f p := by
    unfold temperature
    rw [c112_limit hp1 hp2]
  have hev : 0 < evaluate f p := by
    have := (c112_defined h h0 p).2
    rw [c112_limit hp1 hp2] at this
    exact dblEps_pos.trans_le this
  have hx : f.tc / max (temperature f p) dblEps = evaluate f p := by
    rw [max_eq_left ht, ee]
    field_simp
  have g1 : 1 ≤ evaluate f p := by
    rw [ee, div_le_iff₀ hev] at h1
    nlinarith
  have g2 : evaluate f p ≤ f.maxX := by
    rw [ee] at h2
    rwa [div_le_div_iff_of_pos_left htc (by linarith) hev] at h2
  unfold pressure
  simp only [hx, c112_limit g1 g2]
  rw [c112_root (c112_c h) (c112_disc h h0 hp1 hp2)]
  exact Real.rpow_logb (by norm_num) (by norm_num) hpos

/-- The temperature at the saturation pressure of a temperature is that temperature, for every
temperature and pressure within the limits where the curve falls (with the inverse temperature). -/
theorem c112_temperature {f : Curve} (hc : f.c ≠ 0) (htc : 0 < f.tc) {t : ℝ} (ht : dblEps ≤ t)
    (h1 : t ≤ f.tc) (h2 : f.tc / t ≤ f.maxX) (hp1 : f.minP ≤ pressure f t)
    (hp2 : pressure f t ≤ f.maxP) (hs : f.b + 2 * f.c * (f.tc / t) ≤ 0) :
    temperature f (pressure f t) = t := by
  have hpos : 0 < t := dblEps_pos.trans_le ht
  have g1 : 1 ≤ f.tc / t := by rwa [le_div_iff₀ hpos, one_mul]
  have hlog : f.a + (f.b + f.c * (f.tc / t)) * (f.tc / t) = Real.logb 10 (pressure f t) := by
    unfold pressure
    simp only [max_eq_left ht, c112_limit g1 h2]
    exact (Real.logb_rpow (by norm_num) (by norm_num)).symm
  unfold temperature
  rw [c112_limit hp1 hp2, (c112_pick hc hlog).1 hs]
  field_simp

/-- Where the curve rises instead, which nothing checks, the temperature returned is that of the
other root. -/
theorem c112_other {f : Curve} (hc : f.c ≠ 0) {t : ℝ} (ht : dblEps ≤ t)
    (h1 : t ≤ f.tc) (h2 : f.tc / t ≤ f.maxX) (hp1 : f.minP ≤ pressure f t)
    (hp2 : pressure f t ≤ f.maxP) (hs : 0 < f.b + 2 * f.c * (f.tc / t)) :
    temperature f (pressure f t) = f.tc / (-f.b / f.c - f.tc / t) ∧
      -f.b / f.c - f.tc / t ≠ f.tc / t := by
  have hpos : 0 < t := dblEps_pos.trans_le ht
  have g1 : 1 ≤ f.tc / t := by rwa [le_div_iff₀ hpos, one_mul]
  have hlog : f.a + (f.b + f.c * (f.tc / t)) * (f.tc / t) = Real.logb 10 (pressure f t) := by
    unfold pressure
    simp only [max_eq_left ht, c112_limit g1 h2]
    exact (Real.logb_rpow (by norm_num) (by norm_num)).symm
  unfold temperature
  rw [c112_limit hp1 hp2, (c112_pick hc hlog).2 hs.le]
  refine ⟨rfl, fun e => ?_⟩
  have : -f.b / f.c = 2 * (f.tc / t) := by linarith
  rw [div_eq_iff hc] at this
  nlinarith

/-- The curves of all the defined fluids fall all over their range. -/
theorem c112_table : ∀ r ∈ table, r.c ≠ 0 ∧ 0 < r.tmin ∧ r.tmin < r.tc ∧ 0 < r.minP ∧
    r.minP < r.maxP ∧ r.b + 2 * r.c < 0 ∧ r.b + 2 * r.c * (r.tc / r.tmin) < 0 := by
  decide +kernel

/-- So for each of them the temperature undoes the pressure from where the curve starts to the
critical temperature, wherever the pressure is within the limits of the other curve. -/
theorem c112_fluids (r : Saturation.Row) (hr : r ∈ table) {t : ℝ} (h1 : (r.tmin : ℝ) ≤ t)
    (h2 : t ≤ r.tc) (he : dblEps ≤ t) (hp1 : (r.minP : ℝ) ≤ pressure r.curve t)
    (hp2 : pressure r.curve t ≤ r.maxP) : temperature r.curve (pressure r.curve t) = t := by
  obtain ⟨k1, k2, k3, -, -, k4, k5⟩ := c112_table r hr
  have k2' : (0 : ℝ) < r.tmin := by exact_mod_cast k2
  have k3' : (r.tmin : ℝ) < r.tc := by exact_mod_cast k3
  have k4' : (r.b : ℝ) + 2 * r.c < 0 := by exact_mod_cast k4
  have k5' : (r.b : ℝ) + 2 * r.c * (r.tc / r.tmin) < 0 := by exact_mod_cast k5
  have htc : (0 : ℝ) < r.tc := k2'.trans k3'
  have hpos : 0 < t := k2'.trans_le h1
  have hx1 : 1 ≤ (r.tc : ℝ) / t := by rwa [le_div_iff₀ hpos, one_mul]
  have hx2 : (r.tc : ℝ) / t ≤ r.tc / r.tmin := div_le_div_of_nonneg_left htc.le k2' h1
  refine c112_temperature (f := r.curve) ?_ htc he h2 hx2 hp1 hp2 ?_
  · show (r.c : ℝ) ≠ 0
    exact_mod_cast k1
  · show (r.b : ℝ) + 2 * r.c * (r.tc / t) ≤ 0
    rcases le_total (0 : ℝ) r.c with hc | hc
    · have := mul_le_mul_of_nonneg_left hx2 hc
      nlinarith
    · have := mul_le_mul_of_nonpos_left hx1 hc
      nlinarith

/-! A simple curve, `log10 p = 3 - x²` for `x` from 1 to 2, that is accepted. -/

private noncomputable def c112_f : Curve := ⟨3, 0, -1, 2, 1 / 10, 100, 200⟩

private theorem c112_f_disc (p l : ℝ) (h : Real.logb 10 p = l) : disc c112_f p = 4 * (3 - l) := by
  unfold disc
  rw [h]
  show (0 : ℝ) * 0 - 4 * (-1) * (3 - l) = _
  ring

private theorem c112_f_eval (p l : ℝ) (s : ℝ) (h : Real.logb 10 p = l) (hs : 0 ≤ s)
    (h2 : s * s = 3 - l) : evaluate c112_f p = s := by
  unfold evaluate
  rw [c112_f_disc p l h, ← h2, show 4 * (s * s) = (2 * s) * (2 * s) by ring,
    Real.sqrt_mul_self (by linarith)]
  show (-0 - 2 * s) * (1 / 2 / (-1)) = s
  ring

private theorem c112_log_a : Real.logb 10 (1 / 10) = -1 := by
  rw [one_div, Real.logb_inv, Real.logb_self_eq_one (by norm_num)]

private theorem c112_log_b : Real.logb 10 100 = 2 := by
  rw [show (100 : ℝ) = 10 ^ (2 : ℝ) by norm_num]
  exact Real.logb_rpow (by norm_num) (by norm_num)

example : Accepts c112_f ∧ 0 < c112_f.minP ∧ 0 < c112_f.tc ∧ temperature c112_f 100 = 200 ∧
    temperature c112_f (1 / 10) = 100 := by
  have e1 : evaluate c112_f (1 / 10) = 2 := c112_f_eval _ _ 2 c112_log_a (by norm_num) (by norm_num)
  have e2 : evaluate c112_f 100 = 1 := c112_f_eval _ _ 1 c112_log_b (by norm_num) (by norm_num)
  have hd : (dblEps : ℝ) < 1 := dblEps_lt_one
  refine ⟨⟨?_, ?_, ?_, ?_, ?_, ?_⟩, ?_, ?_, ?_, ?_⟩
  · show (1 / 10 : ℝ) < 100
    norm_num
  · show ¬ |(-1 : ℝ)| < dblEps
    rw [abs_neg, abs_one]
    exact not_lt.2 hd.le
  · show ¬ disc c112_f (1 / 10) < 0
    rw [c112_f_disc _ _ c112_log_a]
    norm_num
  · show ¬ disc c112_f 100 < 0
    rw [c112_f_disc _ _ c112_log_b]
    norm_num
  · show ¬ evaluate c112_f (1 / 10) < dblEps
    rw [e1]
    exact not_lt.2 (by linarith)
  · show ¬ evaluate c112_f 100 < dblEps
    rw [e2]
    exact not_lt.2 hd.le
  · show (0 : ℝ) < 1 / 10
    norm_num
  · show (0 : ℝ) < 200
    norm_num
  · show 200 / evaluate c112_f (limitRange (1 / 10) 100 100) = (200 : ℝ)
    rw [c112_limit (by norm_num) le_rfl, e2]
    norm_num
  · show 200 / evaluate c112_f (limitRange (1 / 10) (1 / 10) 100) = (100 : ℝ)
    rw [c112_limit le_rfl (by norm_num), e1]
    norm_num

example : table.length = 22 := by decide +kernel

/-! The curve `log10 p = (x - 3)²` rises beyond 3: the temperature 50 comes back as 100. -/

private noncomputable def c112_g : Curve := ⟨9, -6, 1, 5, 1, 10000, 200⟩

example : pressure c112_g 50 = 10 ∧ temperature c112_g (pressure c112_g 50) = 100 := by
  have hd : (dblEps : ℝ) < 1 := dblEps_lt_one
  have hp : pressure c112_g 50 = 10 := by
    unfold pressure
    simp only [max_eq_left (show (dblEps : ℝ) ≤ 50 by linarith), c112_g]
    rw [c112_limit (by norm_num) (by norm_num)]
    norm_num
  have h := (c112_other (f := c112_g) (t := 50) (by norm_num [c112_g]) (by linarith)
    (by norm_num [c112_g]) (by norm_num [c112_g]) (by rw [hp]; norm_num [c112_g])
    (by rw [hp]; norm_num [c112_g]) (by norm_num [c112_g])).1
  refine ⟨hp, ?_⟩
  rw [h]
  norm_num [c112_g]

end Gunns.Props
