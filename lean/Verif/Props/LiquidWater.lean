import Verif.Sensor.LiquidWater
import Verif.Props.Saturation

/-!
# C113: the liquid water sensor finds liquid exactly when the fluid is at or below its dew point

The specification compares the partial pressure to the saturation pressure, and the temperature to
the dew point.
-/

namespace Gunns.Props

open Gunns.Saturation Gunns.LiquidWater Gunns.Interp

/-- Where the saturation pressure is not tiny, liquid is found exactly when the partial pressure is
that or more, and the humidity is the share of the two; what was found before does not count. -/
theorem c113_present (f : Curve) (pp t : ℝ) (s : LiquidWater.State) (h : dblEps < pressure f t) :
    ((LiquidWater.update f pp t s).present ↔ pressure f t ≤ pp) ∧
      (LiquidWater.update f pp t s).humidity * pressure f t = pp ∧
      (LiquidWater.update f pp t s).saturation = pressure f t ∧
      (LiquidWater.update f pp t s).dewPoint = temperature f pp := by
  have hpos : 0 < pressure f t := dblEps_pos.trans h
  have e : (LiquidWater.update f pp t s).humidity = pp / pressure f t := if_pos h
  refine ⟨?_, ?_, rfl, rfl⟩
  · have e2 : (LiquidWater.update f pp t s).present ↔
        1 ≤ (LiquidWater.update f pp t s).humidity := Iff.rfl
    rw [e2, e, le_div_iff₀ hpos, one_mul]
  · rw [e]
    field_simp

/-- Within the limits of both curves, and where the pressure curve falls, that is when the
temperature is at or below the dew point. -/
theorem c113_dew {f : Curve} (h : Accepts f) (h0 : 0 < f.minP) (htc : 0 < f.tc) (hm : 1 ≤ f.maxX)
    {pp t : ℝ} (hp1 : f.minP ≤ pp) (hp2 : pp ≤ f.maxP) (ht : dblEps ≤ t) (h1 : t ≤ f.tc)
    (h2 : f.tc / f.maxX ≤ t) (hs1 : f.minP ≤ pressure f t) (hs2 : pressure f t ≤ f.maxP)
    (hfall : f.b + 2 * f.c * (f.tc / t) ≤ 0) (hsat : dblEps < pressure f t)
    (s : LiquidWater.State) :
    (LiquidWater.update f pp t s).present ↔ t ≤ (LiquidWater.update f pp t s).dewPoint := by
  obtain ⟨e1, -, -, e2⟩ := c113_present f pp t s hsat
  have htpos : 0 < t := dblEps_pos.trans_le ht
  have hc : f.c ≠ 0 := by
    intro hc
    apply h.2.1
    rw [hc, abs_zero]
    exact dblEps_pos
  have hx : f.tc / t ≤ f.maxX := by
    rw [div_le_iff₀ (by linarith)] at h2
    rw [div_le_iff₀ htpos]
    linarith
  have hback := c112_temperature hc htc ht h1 hx hs1 hs2 hfall
  rw [e1, e2]
  constructor
  · intro hle
    have := (c112_rises h h0 htc hle).2
    rwa [hback] at this
  · intro hle
    by_contra hlt
    have hlt := not_le.1 hlt
    have hge := (c112_rises h h0 htc hlt.le).2
    rw [hback] at hge
    have heq : temperature f pp = t := le_antisymm hge hle
    have := c112_pressure h h0 hp1 hp2 htc (heq ▸ ht) (heq ▸ h1) (heq ▸ h2) hm
    rw [heq] at this
    exact absurd this (ne_of_gt hlt)

/-- Where the saturation pressure is tiny the humidity, and so whether liquid is found, stays as it
was, whatever the partial pressure. -/
theorem c113_stale (f : Curve) (pp t : ℝ) (s : LiquidWater.State) (h : pressure f t ≤ dblEps) :
    (LiquidWater.update f pp t s).humidity = s.humidity ∧
      ((LiquidWater.update f pp t s).present ↔ 1 ≤ s.humidity) := by
  have e : (LiquidWater.update f pp t s).humidity = s.humidity := if_neg (not_lt.2 h)
  refine ⟨e, ?_⟩
  have e2 : (LiquidWater.update f pp t s).present ↔
      1 ≤ (LiquidWater.update f pp t s).humidity := Iff.rfl
  rw [e2, e]

/-- The curves of water, the third row of the table. -/
noncomputable def c113_water : Curve :=
  ⟨7.105911, -2.543893, -0.2302306, 6.47096, 1.009159e-19, 21467.76, 647.096⟩

/-- They are those of the table. -/
theorem c113_row : ∃ r ∈ table, r.name = "H2O" ∧ r.curve = c113_water := by
  refine ⟨⟨"H2O", 7.105911, -2.543893, -0.2302306, 647.096, 100.0, 1.009159e-19, 2.146776e4⟩,
    by simp [table], rfl, ?_⟩
  simp only [Saturation.Row.curve, c113_water, Curve.mk.injEq]
  refine ⟨?_, ?_, ?_, ?_, ?_, ?_, ?_⟩ <;> norm_num

private theorem c113_eval {p : ℝ} (hl : Real.logb 10 p ≤ 5) :
    0 ≤ disc c113_water p ∧ dblEps ≤ evaluate c113_water p := by
  have hd : (2.8 : ℝ) * 2.8 ≤ disc c113_water p := by
    simp only [disc, c113_water]
    norm_num
    nlinarith
  have hs : (2.8 : ℝ) ≤ Real.sqrt (disc c113_water p) := Real.le_sqrt_of_sq_le (by rw [sq]; exact hd)
  refine ⟨by norm_num at hd; linarith, ?_⟩
  have he : (dblEps : ℝ) ≤ 1 / 10 := by norm_num [dblEps]
  refine he.trans ?_
  show (1 / 10 : ℝ) ≤ (-(-2.543893) - Real.sqrt (disc c113_water p)) * (1 / 2 / (-0.2302306))
  norm_num
  norm_num at hs
  linarith

/-- The checks accept the curves of water. -/
theorem c113_accepts : Accepts c113_water := by
  have l1 : Real.logb 10 c113_water.minP ≤ 5 := by
    have := Real.logb_le_logb_of_le (b := 10) (by norm_num) (show (0 : ℝ) < c113_water.minP by
      norm_num [c113_water]) (show c113_water.minP ≤ 1 by norm_num [c113_water])
    rw [Real.logb_one] at this
    linarith
  have l2 : Real.logb 10 c113_water.maxP ≤ 5 := by
    have := Real.logb_le_logb_of_le (b := 10) (by norm_num) (show (0 : ℝ) < c113_water.maxP by
      norm_num [c113_water]) (show c113_water.maxP ≤ (10 : ℝ) ^ (5 : ℝ) by norm_num [c113_water])
    rwa [Real.logb_rpow (by norm_num) (by norm_num)] at this
  obtain ⟨a1, a2⟩ := c113_eval l1
  obtain ⟨b1, b2⟩ := c113_eval l2
  refine ⟨by norm_num [c113_water], ?_, not_lt.2 a1, not_lt.2 b1, not_lt.2 a2, not_lt.2 b2⟩
  norm_num [c113_water, dblEps, abs_of_neg]

/-- With the curves of water: from 100 K to the critical temperature, within the limits of pressure,
liquid is found exactly at or below the dew point. -/
theorem c113_liquid {pp t : ℝ} (hp1 : 1.009159e-19 ≤ pp) (hp2 : pp ≤ 21467.76) (h1 : 100 ≤ t)
    (h2 : t ≤ 647.096) (hs2 : pressure c113_water t ≤ 21467.76)
    (hsat : dblEps < pressure c113_water t) (s : LiquidWater.State) :
    (LiquidWater.update c113_water pp t s).present ↔
      t ≤ (LiquidWater.update c113_water pp t s).dewPoint := by
  have hd : (dblEps : ℝ) ≤ 1 := dblEps_lt_one.le
  have hmin : (1.009159e-19 : ℝ) ≤ dblEps := by norm_num [dblEps]
  refine c113_dew c113_accepts (by norm_num [c113_water]) (by norm_num [c113_water])
    (by norm_num [c113_water]) hp1 hp2 (by linarith) h2 ?_ (hmin.trans hsat.le) hs2 ?_ hsat s
  · have : c113_water.tc / c113_water.maxX = 100 := by norm_num [c113_water]
    rw [this]
    exact h1
  · have hx : 0 < c113_water.tc / t := div_pos (by norm_num [c113_water]) (by linarith)
    show (-2.543893 : ℝ) + 2 * (-0.2302306) * (c113_water.tc / t) ≤ 0
    nlinarith

/-- At 100 K and below the sensor of water is stuck: it goes on finding what it found before, even
in a fluid without any water. -/
theorem c113_cold {pp t : ℝ} (ht : t ≤ 100) (s : LiquidWater.State) :
    (LiquidWater.update c113_water pp t s).present ↔ 1 ≤ s.humidity := by
  refine (c113_stale c113_water pp t s ?_).2
  have hd : (dblEps : ℝ) < 1 := dblEps_lt_one
  have hpos : 0 < max t (dblEps : ℝ) := lt_max_of_lt_right dblEps_pos
  have hle : max t (dblEps : ℝ) ≤ 100 := max_le ht (by linarith)
  have hx : (6.47096 : ℝ) ≤ 647.096 / max t dblEps := by
    rw [le_div_iff₀ hpos]
    norm_num
    linarith
  have hl : limitRange 1 (647.096 / max t dblEps) (6.47096 : ℝ) = 6.47096 := by
    unfold limitRange
    rw [min_eq_right hx, max_eq_left (by norm_num)]
  show (10 : ℝ) ^ ((7.105911 : ℝ) + (-2.543893 + -0.2302306 *
    limitRange 1 (647.096 / max t dblEps) (6.47096 : ℝ)) *
      limitRange 1 (647.096 / max t dblEps) (6.47096 : ℝ)) ≤ dblEps
  rw [hl]
  have h1 : (10 : ℝ) ^ ((7.105911 : ℝ) + (-2.543893 + -0.2302306 * 6.47096) * 6.47096) ≤
      (10 : ℝ) ^ (-16 : ℝ) := Real.rpow_le_rpow_of_exponent_le (by norm_num) (by norm_num)
  refine h1.trans ?_
  rw [Real.rpow_neg (by norm_num), show (16 : ℝ) = ((16 : ℕ) : ℝ) by norm_num, Real.rpow_natCast]
  norm_num [dblEps]

/-! A simple curve, `log10 p = 3 - x` from `x = 1` to 2, at 200 K where it is 100. -/

private noncomputable def c113_f : Curve := ⟨3, -1, 0, 2, 1, 100, 200⟩

private theorem c113_sat : pressure c113_f 200 = 100 := by
  have hd : (dblEps : ℝ) < 1 := dblEps_lt_one
  unfold pressure
  simp only [c113_f, max_eq_left (show (dblEps : ℝ) ≤ 200 by linarith)]
  unfold limitRange
  norm_num

example : ¬ (LiquidWater.update c113_f 50 200 initial).present ∧
    (LiquidWater.update c113_f 100 200 initial).present := by
  have hd : (dblEps : ℝ) < 1 := dblEps_lt_one
  have h : dblEps < pressure c113_f 200 := by rw [c113_sat]; linarith
  rw [(c113_present c113_f 50 200 initial h).1, (c113_present c113_f 100 200 initial h).1, c113_sat]
  norm_num

/-- At half the critical temperature the saturation pressure of water is between 10 and 100 kPa. -/
example : (10 : ℝ) ≤ pressure c113_water 323.548 ∧ pressure c113_water 323.548 ≤ 100 := by
  have hd : (dblEps : ℝ) < 1 := dblEps_lt_one
  have e : pressure c113_water 323.548 = (10 : ℝ) ^ (1.0972026 : ℝ) := by
    unfold pressure
    simp only [c113_water, max_eq_left (show (dblEps : ℝ) ≤ 323.548 by norm_num; linarith)]
    unfold limitRange
    norm_num
  rw [e]
  constructor
  · calc (10 : ℝ) = 10 ^ (1 : ℝ) := by norm_num
      _ ≤ _ := Real.rpow_le_rpow_of_exponent_le (by norm_num) (by norm_num)
  · calc (10 : ℝ) ^ (1.0972026 : ℝ) ≤ 10 ^ (2 : ℝ) :=
        Real.rpow_le_rpow_of_exponent_le (by norm_num) (by norm_num)
      _ = 100 := by norm_num

/-- A sensor that last found a humidity of two still finds liquid in dry fluid at 90 K. -/
example : (LiquidWater.update c113_water 0 90 ⟨True, 2, 0, 0⟩).present :=
  (c113_cold (by norm_num) _).2 (by norm_num)

end Gunns.Props
