import Verif.Fluid.SorptionLemmas

/-!
# C71: a sorption bed takes from the stream what it holds

The isotherm, the loading of the sorbates and their exchange with the stream, for any number of sorbates, offgas compounds
and segments, in either direction of the flow.
-/

namespace Gunns.Props

open Gunns Gunns.Sorption Gunns.Interp
open Finset (range)

/-! ## The isotherm -/

private theorem eps_r : (0 : ℝ) < dblEps := dblEps_pos

private theorem flt_r : (0 : ℝ) < fltEps := by unfold fltEps; norm_num

private theorem exp_pos' (e t : ℝ) : 0 < tothExp e t := Real.exp_pos _

/-- The denominator grows no faster than the pressure. -/
private theorem denom_scale {b p q t : ℝ} (hb : 0 < b) (hp : 0 < p) (hpq : p ≤ q) (ht : t ≠ 0) :
    p * (1 + (b * q) ^ t) ^ (1 / t) ≤ q * (1 + (b * p) ^ t) ^ (1 / t) := by
  have hq : 0 < q := hp.trans_le hpq
  obtain ⟨l, hl⟩ : ∃ l, l = q / p := ⟨_, rfl⟩
  have hlq : q = l * p := by rw [hl]; field_simp
  have hl1 : 1 ≤ l := by rw [hl]; exact (one_le_div hp).2 hpq
  have hl0 : 0 < l := by linarith
  obtain ⟨y, hy⟩ : ∃ y, y = (b * p) ^ t := ⟨_, rfl⟩
  have hy0 : 0 < y := by rw [hy]; exact Real.rpow_pos_of_pos (mul_pos hb hp) t
  have e1 : (b * q) ^ t = l ^ t * y := by
    rw [hlq, show b * (l * p) = l * (b * p) by ring, Real.mul_rpow hl0.le (mul_pos hb hp).le, hy]
  have hlt0 : 0 < l ^ t := Real.rpow_pos_of_pos hl0 t
  have e2 : (l ^ t * (1 + y)) ^ (1 / t) = l * (1 + y) ^ (1 / t) := by
    rw [Real.mul_rpow hlt0.le (by linarith), ← Real.rpow_mul hl0.le, mul_one_div_cancel ht, Real.rpow_one]
  have key : (1 + l ^ t * y) ^ (1 / t) ≤ l * (1 + y) ^ (1 / t) := by
    rw [← e2]
    rcases lt_or_gt_of_ne ht with h | h
    · have h1 : l ^ t ≤ 1 := Real.rpow_le_one_of_one_le_of_nonpos hl1 h.le
      exact Real.rpow_le_rpow_of_nonpos (mul_pos hlt0 (by linarith)) (by linarith) (one_div_neg.2 h).le
    · have h1 : 1 ≤ l ^ t := Real.one_le_rpow hl1 h.le
      exact Real.rpow_le_rpow (by nlinarith) (by nlinarith) (one_div_pos.2 h).le
  rw [e1, ← hy, hlq]
  calc p * (1 + l ^ t * y) ^ (1 / t) ≤ p * (l * (1 + y) ^ (1 / t)) := mul_le_mul_of_nonneg_left key hp.le
    _ = l * p * (1 + y) ^ (1 / t) := by ring

private theorem denom_pos {b p t : ℝ} (hb : 0 < b) (hp : 0 < p) : 0 < (1 + (b * p) ^ t) ^ (1 / t) :=
  Real.rpow_pos_of_pos (by have := Real.rpow_pos_of_pos (mul_pos hb hp) t; linarith) _

private theorem equil_eq {a0 b0 e t0 c0 pp T : ℝ} (he : e ≠ 0) (hp : fltEps ≤ pp) :
    loadingEquil a0 b0 e t0 c0 pp T = a0 * tothExp e T * pp
      / max ((1 + (b0 * tothExp e T * pp) ^ tothT t0 c0 T) ^ (1 / tothT t0 c0 T)) dblEps := if_pos ⟨he, hp⟩

private theorem tothT_ne (t0 c0 T : ℝ) : tothT t0 c0 T ≠ 0 := innerLimit_ne_zero (by norm_num) _

/-- Nothing is held at equilibrium below the least pressure that counts. -/
theorem c71_isotherm_vacuum (a0 b0 e t0 c0 pp T : ℝ) (h : pp < fltEps) : loadingEquil a0 b0 e t0 c0 pp T = 0 :=
  if_neg (fun c => not_lt.2 c.2 h)

/-- Above it the sorbant holds something, and more of it the higher the partial pressure, at every temperature. -/
theorem c71_isotherm_monotone {a0 b0 e : ℝ} (t0 c0 T : ℝ) {p q : ℝ} (ha : 0 < a0) (hb : 0 < b0) (he : e ≠ 0)
    (hp : fltEps ≤ p) (hpq : p ≤ q) :
    0 < loadingEquil a0 b0 e t0 c0 p T ∧ loadingEquil a0 b0 e t0 c0 p T ≤ loadingEquil a0 b0 e t0 c0 q T := by
  have hp0 : 0 < p := flt_r.trans_le hp
  have hq0 : 0 < q := hp0.trans_le hpq
  have hA : 0 < a0 * tothExp e T := mul_pos ha (exp_pos' e T)
  have hB : 0 < b0 * tothExp e T := mul_pos hb (exp_pos' e T)
  rw [equil_eq he hp, equil_eq he (hp.trans hpq)]
  have hs := denom_scale hB hp0 hpq (tothT_ne t0 c0 T)
  have d1 := denom_pos (t := tothT t0 c0 T) hB hp0
  have d2 := denom_pos (t := tothT t0 c0 T) hB hq0
  refine ⟨div_pos (mul_pos hA hp0) (eps_r.trans_le (le_max_right _ _)), ?_⟩
  rw [div_le_div_iff₀ (eps_r.trans_le (le_max_right _ _)) (eps_r.trans_le (le_max_right _ _))]
  have key : p * max ((1 + (b0 * tothExp e T * q) ^ tothT t0 c0 T) ^ (1 / tothT t0 c0 T)) dblEps
      ≤ q * max ((1 + (b0 * tothExp e T * p) ^ tothT t0 c0 T) ^ (1 / tothT t0 c0 T)) dblEps := by
    rcases max_choice ((1 + (b0 * tothExp e T * q) ^ tothT t0 c0 T) ^ (1 / tothT t0 c0 T)) dblEps with h | h
    · rw [h]
      exact hs.trans (mul_le_mul_of_nonneg_left (le_max_left _ _) hq0.le)
    · rw [h]
      exact (mul_le_mul_of_nonneg_right hpq eps_r.le).trans (mul_le_mul_of_nonneg_left (le_max_right _ _) hq0.le)
  calc a0 * tothExp e T * p * max ((1 + (b0 * tothExp e T * q) ^ tothT t0 c0 T) ^ (1 / tothT t0 c0 T)) dblEps
      = a0 * tothExp e T * (p * max ((1 + (b0 * tothExp e T * q) ^ tothT t0 c0 T) ^ (1 / tothT t0 c0 T)) dblEps) := by ring
    _ ≤ a0 * tothExp e T * (q * max ((1 + (b0 * tothExp e T * p) ^ tothT t0 c0 T) ^ (1 / tothT t0 c0 T)) dblEps) :=
      mul_le_mul_of_nonneg_left key hA.le
    _ = a0 * tothExp e T * q * max ((1 + (b0 * tothExp e T * p) ^ tothT t0 c0 T) ^ (1 / tothT t0 c0 T)) dblEps := by ring

/-- Where the exponent is positive, the sorbant holds no more than Henry's law gives, and never more than its capacity
    `a0 / b0`, which is the same at all temperatures. -/
theorem c71_isotherm_saturation {a0 b0 e t0 c0 T p : ℝ} (ha : 0 < a0) (hb : 0 < b0) (hp : 0 < p)
    (ht : 0 < t0 + c0 / T) :
    loadingEquil a0 b0 e t0 c0 p T ≤ a0 * tothExp e T * p ∧ loadingEquil a0 b0 e t0 c0 p T ≤ a0 / b0 := by
  have hE := exp_pos' e T
  have hA : 0 < a0 * tothExp e T := mul_pos ha hE
  have hB : 0 < b0 * tothExp e T := mul_pos hb hE
  by_cases h : e ≠ 0 ∧ fltEps ≤ p
  · rw [equil_eq h.1 h.2]
    have htt : 0 < tothT t0 c0 T := by
      have h1 : 0 < limitRange (-100) (t0 + c0 / T) 100 := by
        unfold limitRange
        exact lt_of_lt_of_le (lt_min ht (by norm_num)) (le_max_left _ _)
      unfold tothT innerLimit
      split_ifs with h2 h3
      · exfalso
        have : (1 : ℝ) / 2 * (0.1 + -0.1) = 0 := by norm_num
        rw [this] at h3
        linarith
      · norm_num
      · exact h1
    obtain ⟨t, hteq⟩ : ∃ t, t = tothT t0 c0 T := ⟨_, rfl⟩
    rw [← hteq] at htt ⊢
    have hy : 0 < (b0 * tothExp e T * p) ^ t := Real.rpow_pos_of_pos (mul_pos hB hp) t
    have d1 : 1 ≤ (1 + (b0 * tothExp e T * p) ^ t) ^ (1 / t) :=
      Real.one_le_rpow (by linarith) (one_div_pos.2 htt).le
    have d2 : b0 * tothExp e T * p ≤ (1 + (b0 * tothExp e T * p) ^ t) ^ (1 / t) := by
      have h1 : ((b0 * tothExp e T * p) ^ t) ^ (1 / t) = b0 * tothExp e T * p := by
        rw [← Real.rpow_mul (mul_pos hB hp).le, mul_one_div_cancel htt.ne', Real.rpow_one]
      calc b0 * tothExp e T * p = ((b0 * tothExp e T * p) ^ t) ^ (1 / t) := h1.symm
        _ ≤ _ := Real.rpow_le_rpow hy.le (by linarith) (one_div_pos.2 htt).le
    have hm := le_max_left ((1 + (b0 * tothExp e T * p) ^ t) ^ (1 / t)) dblEps
    constructor
    · exact div_le_self (mul_pos hA hp).le (d1.trans hm)
    · rw [div_le_div_iff₀ (by linarith) hb]
      calc a0 * tothExp e T * p * b0 = a0 * (b0 * tothExp e T * p) := by ring
        _ ≤ a0 * _ := mul_le_mul_of_nonneg_left (d2.trans hm) ha.le
  · have e0 : loadingEquil a0 b0 e t0 c0 p T = 0 := if_neg h
    rw [e0]
    exact ⟨(mul_pos hA hp).le, (div_pos ha hb).le⟩

/-- Failure: where the exponent comes out negative the isotherm is turned over. The sorbant holds its full capacity, or more,
    already at the least pressures. -/
theorem c71_isotherm_inverted {a0 b0 e t0 c0 T p : ℝ} (ha : 0 < a0) (hb : 0 < b0) (he : e ≠ 0) (hp : fltEps ≤ p)
    (ht : t0 + c0 / T < 0) :
    min (a0 / b0) (a0 * tothExp e T * p / dblEps) ≤ loadingEquil a0 b0 e t0 c0 p T := by
  have hp0 : 0 < p := flt_r.trans_le hp
  have hE := exp_pos' e T
  have hA : 0 < a0 * tothExp e T := mul_pos ha hE
  have hB : 0 < b0 * tothExp e T := mul_pos hb hE
  rw [equil_eq he hp]
  have htt : tothT t0 c0 T < 0 := by
    have h1 : limitRange (-100) (t0 + c0 / T) 100 < 0 := by
      unfold limitRange
      exact max_lt (lt_of_le_of_lt (min_le_left _ _) ht) (by norm_num)
    unfold tothT innerLimit
    split_ifs with h2 h3
    · norm_num
    · exfalso
      have : (1 : ℝ) / 2 * (0.1 + -0.1) = 0 := by norm_num
      rw [this] at h3
      linarith
    · exact h1
  obtain ⟨t, hteq⟩ : ∃ t, t = tothT t0 c0 T := ⟨_, rfl⟩
  rw [← hteq] at htt ⊢
  have hy : 0 < (b0 * tothExp e T * p) ^ t := Real.rpow_pos_of_pos (mul_pos hB hp0) t
  have d2 : (1 + (b0 * tothExp e T * p) ^ t) ^ (1 / t) ≤ b0 * tothExp e T * p := by
    have h1 : ((b0 * tothExp e T * p) ^ t) ^ (1 / t) = b0 * tothExp e T * p := by
      rw [← Real.rpow_mul (mul_pos hB hp0).le, mul_one_div_cancel htt.ne, Real.rpow_one]
    calc _ ≤ ((b0 * tothExp e T * p) ^ t) ^ (1 / t) :=
          Real.rpow_le_rpow_of_nonpos hy (by linarith) (one_div_neg.2 htt).le
      _ = _ := h1
  rcases max_choice ((1 + (b0 * tothExp e T * p) ^ t) ^ (1 / t)) dblEps with h | h
  · rw [h]
    refine (min_le_left _ _).trans ?_
    rw [div_le_div_iff₀ hb (denom_pos hB hp0)]
    calc a0 * _ ≤ a0 * (b0 * tothExp e T * p) := mul_le_mul_of_nonneg_left d2 ha.le
      _ = a0 * tothExp e T * p * b0 := by ring
  · rw [h]
    exact min_le_right _ _

/-- Failure: CO2 on the silica gels defined in the code has a negative exponent above 782 K. -/
theorem c71_silica_hot {T : ℝ} (hT : 782 ≤ T) : -3.053e-1 + 2.386e+2 / T < 0 := by
  have h1 : (2.386e+2 : ℝ) / T ≤ 2.386e+2 / 782 := div_le_div_of_nonneg_left (by norm_num) (by norm_num) hT
  have h2 : (2.386e+2 : ℝ) / 782 < 3.053e-1 := by norm_num
  linarith

/-- Failure: for water on the silica gels the exponent is pushed up to 0.1 at all temperatures from 220 K to 10000 K, so it
    does not follow the temperature, nor the constants given. -/
theorem c71_silica_exponent {T : ℝ} (h1 : 220 ≤ T) (h2 : T ≤ 10000) :
    tothT (-1.190e-3) 2.213e+1 T = 0.1 ∧ (-1.190e-3 : ℝ) + 2.213e+1 / T < 0.1 := by
  have hT : 0 < T := by linarith
  have h3 : (2.213e+1 : ℝ) / T ≤ 2.213e+1 / 220 := div_le_div_of_nonneg_left (by norm_num) (by norm_num) h1
  have h4 : (2.213e+1 : ℝ) / 10000 ≤ 2.213e+1 / T := div_le_div_of_nonneg_left (by norm_num) hT h2
  have h5 : (2.213e+1 : ℝ) / 220 < 0.1006 := by norm_num
  have h6 : (0.002 : ℝ) < 2.213e+1 / 10000 := by norm_num
  have hx1 : (-1.190e-3 : ℝ) + 2.213e+1 / T < 0.1 := by linarith
  have hx2 : 0 < (-1.190e-3 : ℝ) + 2.213e+1 / T := by linarith
  refine ⟨?_, hx1⟩
  have e : limitRange (-100) ((-1.190e-3 : ℝ) + 2.213e+1 / T) 100 = -1.190e-3 + 2.213e+1 / T := by
    unfold limitRange
    rw [min_eq_left (by linarith), max_eq_left (by linarith)]
  unfold tothT
  rw [e]
  unfold innerLimit
  rw [if_pos ⟨by linarith, hx1⟩, if_neg]
  have : (1 : ℝ) / 2 * (0.1 + -0.1) = 0 := by norm_num
  rw [this]
  linarith

/-! ## The loading of one sorbate -/

section
variable {K : Type*} [Field K] [LinearOrder K] [IsStrictOrderedRing K]

/-- The loading never goes below zero, changes by exactly the rate times the time step, takes at most 99% of what flows in,
    and gives off no more than it holds or the limit allows. -/
theorem c71_loading {km dt inFlux lim : K} {s : Sorbate K} (hdt : 0 < dt) (hl : 0 ≤ s.loading) (hf : 0 ≤ inFlux)
    (hd : 0 ≤ lim) :
    let s' := updateLoading km dt inFlux lim s
    0 ≤ s'.loading ∧ s'.loading = s.loading + s'.rate * dt ∧ s'.rate ≤ 99 / 100 * inFlux ∧ -lim ≤ s'.rate
      ∧ s'.fraction = s'.loading / max s.equil dblEps :=
  ⟨le_max_left _ _, loading_exact hdt hl hf hd, rate_le hdt hl hf hd, (neg_le_rate hdt hl hf hd).2, rfl⟩

/-- It moves towards equilibrium and does not pass it, if the rate constant times the time step is at most one. -/
theorem c71_toward {km dt inFlux lim : K} {s : Sorbate K} (hdt : 0 < dt) (hkm : 0 ≤ km) (h1 : km * dt ≤ 1)
    (hl : 0 ≤ s.loading) (hf : 0 ≤ inFlux) (hd : 0 ≤ lim) :
    let s' := updateLoading km dt inFlux lim s
    (s.loading ≤ s.equil → s.loading ≤ s'.loading ∧ s'.loading ≤ s.equil)
      ∧ (s.equil ≤ s.loading → s.equil ≤ s'.loading ∧ s'.loading ≤ s.loading) := by
  intro s'
  have hx : s'.loading = s.loading + s'.rate * dt := loading_exact hdt hl hf hd
  have hr : s'.rate = _ := updateLoading_rate km dt inFlux lim s
  have hL : (0 : K) ≤ limitFraction * inFlux := mul_nonneg (by unfold limitFraction; norm_num) hf
  constructor
  · intro hle
    have h0 : 0 ≤ km * (s.equil - s.loading) := mul_nonneg hkm (by linarith)
    rw [if_pos h0] at hr
    have a1 : 0 ≤ s'.rate := by rw [hr]; exact le_min h0 hL
    have a2 : s'.rate ≤ km * (s.equil - s.loading) := by rw [hr]; exact min_le_left _ _
    have a3 : s'.rate * dt ≤ s.equil - s.loading := by
      calc s'.rate * dt ≤ km * (s.equil - s.loading) * dt := mul_le_mul_of_nonneg_right a2 hdt.le
        _ = km * dt * (s.equil - s.loading) := by ring
        _ ≤ 1 * (s.equil - s.loading) := mul_le_mul_of_nonneg_right h1 (by linarith)
        _ = _ := one_mul _
    rw [hx]
    exact ⟨by nlinarith, by linarith⟩
  · intro hle
    have h0 : km * (s.equil - s.loading) ≤ 0 := mul_nonpos_of_nonneg_of_nonpos hkm (by linarith)
    have a2 : km * (s.equil - s.loading) ≤ s'.rate ∧ s'.rate ≤ 0 := by
      by_cases hz : 0 ≤ km * (s.equil - s.loading)
      · rw [if_pos hz] at hr
        have hz0 : km * (s.equil - s.loading) = 0 := le_antisymm h0 hz
        rw [hr, hz0, min_eq_left hL]
        exact ⟨le_rfl, le_rfl⟩
      · rw [if_neg hz] at hr
        rw [hr]
        exact ⟨le_max_right _ _, max_le (max_le (div_nonpos_of_nonpos_of_nonneg (by linarith) hdt.le) (by linarith)) h0⟩
    have a3 : s.equil - s.loading ≤ s'.rate * dt := by
      calc s.equil - s.loading = 1 * (s.equil - s.loading) := (one_mul _).symm
        _ ≤ km * dt * (s.equil - s.loading) := mul_le_mul_of_nonpos_right h1 (by linarith)
        _ = km * (s.equil - s.loading) * dt := by ring
        _ ≤ s'.rate * dt := mul_le_mul_of_nonneg_right a2.1 hdt.le
    rw [hx]
    exact ⟨by linarith, by nlinarith [a2.2]⟩

/-- With enough in the stream, `n` steps at a constant equilibrium close the gap geometrically. -/
theorem c71_geometric {km dt inFlux lim : K} {s : Sorbate K} (hdt : 0 < dt) (hkm : 0 ≤ km) (h1 : km * dt ≤ 1)
    (hl : 0 ≤ s.loading) (hle : s.loading ≤ s.equil) (hf : km * (s.equil - s.loading) ≤ 99 / 100 * inFlux) (n : ℕ) :
    let s' := loop (fun _ => updateLoading km dt inFlux lim) n s
    s'.equil = s.equil ∧ s.equil - s'.loading = (1 - km * dt) ^ n * (s.equil - s.loading) := by
  induction n with
  | zero => exact ⟨rfl, by simp⟩
  | succ n ih =>
    obtain ⟨i1, i2⟩ := ih
    obtain ⟨t, ht⟩ : ∃ t, t = loop (fun _ => updateLoading km dt inFlux lim) n s := ⟨_, rfl⟩
    rw [← ht] at i1 i2
    rw [loop_succ, ← ht]
    have hq0 : 0 ≤ (1 - km * dt) ^ n := pow_nonneg (by linarith) n
    have hq1 : (1 - km * dt) ^ n ≤ 1 := pow_le_one₀ (by linarith) (by nlinarith [mul_nonneg hkm hdt.le])
    have hg : 0 ≤ s.equil - t.loading := by rw [i2]; exact mul_nonneg hq0 (by linarith)
    have hg1 : s.equil - t.loading ≤ s.equil - s.loading := by
      rw [i2]
      calc _ ≤ 1 * (s.equil - s.loading) := mul_le_mul_of_nonneg_right hq1 (by linarith)
        _ = _ := one_mul _
    have hrate : (updateLoading km dt inFlux lim t).rate = km * (s.equil - t.loading) := by
      rw [updateLoading_rate, i1, if_pos (mul_nonneg hkm hg), min_eq_left]
      have : km * (s.equil - t.loading) ≤ km * (s.equil - s.loading) := mul_le_mul_of_nonneg_left hg1 hkm
      exact this.trans hf
    have hload : (updateLoading km dt inFlux lim t).loading = t.loading + km * (s.equil - t.loading) * dt := by
      rw [updateLoading_loading, hrate, max_eq_right]
      have h2 : 0 ≤ km * (s.equil - t.loading) * dt := mul_nonneg (mul_nonneg hkm hg) hdt.le
      linarith
    refine ⟨i1, ?_⟩
    rw [hload, pow_succ]
    have : s.equil - (t.loading + km * (s.equil - t.loading) * dt) = (1 - km * dt) * (s.equil - t.loading) := by ring
    rw [this, i2]
    ring

/-- Failure: a rate constant above one over the time step is accepted, and takes the loading past its equilibrium. -/
theorem c71_overshoot {km dt inFlux lim : K} {s : Sorbate K} (hdt : 0 < dt) (h1 : 1 < km * dt)
    (hle : s.loading < s.equil) (hf : km * (s.equil - s.loading) ≤ 99 / 100 * inFlux) :
    s.equil < (updateLoading km dt inFlux lim s).loading := by
  have hkm : 0 < km := by
    by_contra hc
    nlinarith [mul_nonpos_of_nonpos_of_nonneg (not_lt.1 hc) hdt.le]
  have hrate : (updateLoading km dt inFlux lim s).rate = km * (s.equil - s.loading) := by
    rw [updateLoading_rate, if_pos (mul_nonneg hkm.le (by linarith)), min_eq_left (show _ ≤ limitFraction * inFlux from hf)]
  rw [updateLoading_loading, hrate]
  refine lt_of_lt_of_le ?_ (le_max_right _ _)
  have : s.equil - s.loading < km * dt * (s.equil - s.loading) := by nlinarith
  nlinarith

/-! ## Blocking -/

private theorem factor_mem (i f : K) : 0 ≤ blockFactor i f ∧ blockFactor i f ≤ 1 := by
  unfold blockFactor
  have := limitRange_unit (if 0 ≤ i then i * f else i * (f - 1))
  exact ⟨by linarith [this.2], by linarith [this.1]⟩

omit [IsStrictOrderedRing K] in
private theorem fold_block (L : List (ℕ × K)) (sorbs : ℕ → Sorbate K) : ∀ e : K,
    L.foldl (fun acc b => acc * blockFactor b.2 (sorbs b.1).fraction) e
      = e * (L.map (fun b => blockFactor b.2 (sorbs b.1).fraction)).prod := by
  induction L with
  | nil => intro e; simp
  | cons b L ih =>
    intro e
    rw [List.foldl_cons, ih, List.map_cons, List.prod_cons, mul_assoc]

private theorem prod_mem (L : List (ℕ × K)) (sorbs : ℕ → Sorbate K) :
    0 ≤ (L.map (fun b => blockFactor b.2 (sorbs b.1).fraction)).prod
      ∧ (L.map (fun b => blockFactor b.2 (sorbs b.1).fraction)).prod ≤ 1 := by
  induction L with
  | nil => simp
  | cons b L ih =>
    rw [List.map_cons, List.prod_cons]
    have hb := factor_mem b.2 (sorbs b.1).fraction
    exact ⟨mul_nonneg hb.1 ih.1, mul_le_one₀ hb.2 ih.1 ih.2⟩

/-- Other sorbates lower the equilibrium, each by a factor between 0 and 1, and never turn it negative. With no blocking
    sorbates and no malfunction it is that of the isotherm. -/
theorem c71_blocking (p : Props K) (pp T : K) (sorbs : ℕ → Sorbate K) (s : Sorbate K) (he : 0 ≤ p.equil pp T)
    (hm : s.malfFlag = false) :
    0 ≤ (updateEquil p pp T sorbs s).equil ∧ (updateEquil p pp T sorbs s).equil ≤ p.equil pp T
      ∧ (p.blocking = [] → (updateEquil p pp T sorbs s).equil = p.equil pp T) := by
  have e : (updateEquil p pp T sorbs s).equil = p.equil pp T
      * (p.blocking.map (fun b => blockFactor b.2 (sorbs b.1).fraction)).prod := by
    rw [← fold_block]
    unfold updateEquil
    dsimp only
    rw [hm]
    rfl
  have hp := prod_mem p.blocking sorbs
  rw [e]
  refine ⟨mul_nonneg he hp.1, mul_le_of_le_one_right he hp.2, ?_⟩
  intro h
  rw [h]
  simp

omit [IsStrictOrderedRing K] in
/-- The malfunction scales the equilibrium by its value, or by 0 if that is negative. -/
theorem c71_malfunction (p : Props K) (pp T : K) (sorbs : ℕ → Sorbate K) (s : Sorbate K) :
    (updateEquil p pp T sorbs { s with
      malfFlag := true }).equil
      = (updateEquil p pp T sorbs { s with
      malfFlag := false }).equil * max 0 s.malfValue := rfl

/-- One blocking sorbate: with a positive interaction the factor falls as it loads, in proportion up to a full block; with a
    negative interaction it is the lack of loading that blocks. -/
theorem c71_block_law (i f : K) (h0 : 0 ≤ f) (h1 : f ≤ 1) :
    (0 ≤ i → i ≤ 1 → blockFactor i f = 1 - i * f) ∧ (i < 0 → -1 ≤ i → blockFactor i f = 1 - -i * (1 - f)) := by
  constructor
  · intro h2 h3
    unfold blockFactor limitRange
    rw [if_pos h2, min_eq_left (by nlinarith), max_eq_left (mul_nonneg h2 h0)]
  · intro h2 h3
    unfold blockFactor limitRange
    rw [if_neg (not_le.2 h2), min_eq_left (by nlinarith), max_eq_left (by nlinarith)]
    ring

/-- Failure: a blocking sorbate whose own equilibrium is zero counts as full. As dry gas passes a bed, the least residue of
    water blocks all of the CO2. -/
theorem c71_dry_block {km dt inFlux lim : K} {water : Sorbate K} {p : Props K} {sorbs : ℕ → Sorbate K} {s : Sorbate K}
    {pp T : K} (hw : water.equil = 0) (hr : dblEps ≤ (updateLoading km dt inFlux lim water).loading)
    (hp : p.blocking = [(0, 1)]) (h0 : sorbs 0 = updateLoading km dt inFlux lim water) :
    (updateEquil p pp T sorbs s).equil = 0 := by
  have hf : 1 ≤ (sorbs 0).fraction := by
    rw [h0]
    show 1 ≤ (updateLoading km dt inFlux lim water).loading / max water.equil dblEps
    rw [hw, max_eq_right dblEps_pos.le]
    exact (one_le_div dblEps_pos).2 hr
  have hb : blockFactor (1 : K) (sorbs 0).fraction = 0 := by
    unfold blockFactor limitRange
    rw [if_pos zero_le_one, one_mul, min_eq_right hf, max_eq_left zero_le_one, sub_self]
  unfold updateEquil
  dsimp only
  rw [hp, List.foldl_cons, List.foldl_nil, hb]
  split_ifs <;> ring

omit [Field K] [LinearOrder K] [IsStrictOrderedRing K] in
private theorem before_idx {τ : Type*} [DecidableEq τ] {l : List τ} {a : τ} {k : ℕ} (h : k < l.idxOf a) (hk : k < l.length)
    (he : l[k] = a) : False := by
  have h1 := List.not_of_lt_findIdx (p := (· == a)) h
  rw [he] at h1
  simp at h1

omit [Field K] [LinearOrder K] [IsStrictOrderedRing K] in
/-- The blocking links made at initialization are to the first sorbate of the compound's type, with the interaction given;
    compounds that are not sorbates of the segment have no link. -/
theorem c71_register {τ : Type*} [DecidableEq τ] (types : List τ) (blocking : List (τ × K)) (j : ℕ) (v : K) :
    (j, v) ∈ register types blocking ↔ ∃ b ∈ blocking, types[j]? = some b.1 ∧ (∀ k < j, types[k]? ≠ some b.1) ∧ b.2 = v := by
  unfold register
  rw [List.mem_filterMap]
  constructor
  · rintro ⟨b, hb, h⟩
    by_cases hm : b.1 ∈ types
    · rw [if_pos hm] at h
      obtain ⟨h1, h2⟩ := Prod.mk.inj (Option.some.inj h)
      refine ⟨b, hb, ?_, ?_, h2⟩
      · rw [← h1]
        have hlt := List.idxOf_lt_length_iff.2 hm
        rw [List.getElem?_eq_getElem hlt, List.getElem_idxOf hlt]
      · intro k hk hc
        rw [← h1] at hk
        obtain ⟨hkl, hke⟩ := List.getElem?_eq_some_iff.1 hc
        exact before_idx hk hkl hke
    · rw [if_neg hm] at h
      exact absurd h (by simp)
  · rintro ⟨b, hb, h1, h2, h3⟩
    obtain ⟨hjl, hje⟩ := List.getElem?_eq_some_iff.1 h1
    have hm : b.1 ∈ types := by rw [← hje]; exact List.getElem_mem hjl
    refine ⟨b, hb, ?_⟩
    rw [if_pos hm, h3]
    have hlt := List.idxOf_lt_length_iff.2 hm
    have e : types.idxOf b.1 = j := by
      rcases lt_trichotomy (types.idxOf b.1) j with h | h | h
      · exfalso
        apply h2 _ h
        rw [List.getElem?_eq_getElem hlt, List.getElem_idxOf hlt]
      · exact h
      · exfalso
        exact before_idx h hjl hje
    rw [e]

/-- What the constructors and the bed accept: positive rate constants, no sorbate that blocks itself or gives off itself, no
    negative offgas, and segments with volume, of sorbants with a porosity from 0 to 1. -/
theorem c71_accepted {τ : Type*} [DecidableEq τ] (compound : τ) (blocking offgas : List (τ × K))
    (km density porosity cp volume htc : K) :
    (sorbateAccepted compound blocking offgas km = true ↔ dblEps ≤ km ∧ (∀ b ∈ blocking, b.1 ≠ compound)
      ∧ ∀ o ∈ offgas, o.1 ≠ compound ∧ 0 ≤ o.2)
    ∧ (sorbantAccepted density porosity cp = true ↔ dblEps ≤ density ∧ (0 ≤ porosity ∧ porosity ≤ 1) ∧ dblEps ≤ cp)
    ∧ (segmentAccepted volume htc = true ↔ dblEps ≤ volume ∧ dblEps ≤ htc)
    ∧ (dblEps ≤ volume → 0 ≤ porosity → porosity < 1 →
      0 < sorbantVolume porosity volume ∧ sorbantVolume porosity volume ≤ volume) := by
  refine ⟨?_, ?_, ?_, ?_⟩
  · unfold sorbateAccepted
    rw [Bool.and_eq_true, Bool.and_eq_true, List.all_eq_true, List.all_eq_true, decide_eq_true_iff, not_lt, and_assoc]
    simp only [Bool.and_eq_true, decide_eq_true_iff, not_lt]
  · unfold sorbantAccepted
    rw [Bool.and_eq_true, Bool.and_eq_true, decide_eq_true_iff, decide_eq_true_iff, decide_eq_true_iff, not_lt, not_lt,
      and_assoc]
  · unfold segmentAccepted
    rw [Bool.and_eq_true, decide_eq_true_iff, decide_eq_true_iff, not_lt, not_lt]
  · intro h1 h2 h3
    have eps : (0 : K) < dblEps := dblEps_pos
    unfold sorbantVolume
    exact ⟨mul_pos (by linarith) (by linarith), by nlinarith⟩

/-! ## A segment -/

omit [IsStrictOrderedRing K] in
private theorem run_of (c : Compounds K) (g : Segment K) (i : Inlet K) (sorbs : ℕ → Sorbate K) (s : Stream K) (flow : K) :
    ∃ r, r = loop (sorbateStep c g i flow (flow / s.mw)) g.n
      { sorbs := sorbs
        stream := s
        flow := flow
        heat := i.heat
        cap := g.solidCap }
      ∧ (update c g i sorbs s flow).sorbs = r.sorbs ∧ (update c g i sorbs s flow).flow = r.flow
      ∧ (update c g i sorbs s flow).heat = r.heat ∧ (update c g i sorbs s flow).stream = updateMass c r.stream :=
  ⟨_, rfl, rfl, rfl, rfl, rfl⟩

/-- The flow out of a segment is the sum of the masses of its compounds. At least a hundredth of each compound passes, and
    the compounds that no sorbate holds or gives off pass unchanged. -/
theorem c71_stream {c : Compounds K} {g : Segment K} {i : Inlet K} {s : Stream K} {flow : K} {sorbs : ℕ → Sorbate K}
    (hs : Carries c s flow) (hg : Fits c g) (hdt : 0 < i.dt) (hmax : 0 ≤ i.fltMax)
    (hl : ∀ k < g.n, 0 ≤ (sorbs k).loading) :
    let r := update c g i sorbs s flow
    r.flow = ∑ m ∈ range c.n, r.stream.mass m ∧ (∀ m, s.mass m / 100 ≤ r.stream.mass m)
      ∧ (∀ j, 0 ≤ r.stream.tcMass j)
      ∧ ∀ m, (∀ k < g.n, m ∉ bulkOf (g.props k)) → r.stream.mass m = s.mass m := by
  intro r
  obtain ⟨t, ht, -, hf, -, hstr⟩ := run_of c g i sorbs s flow
  obtain ⟨h1, -, -, -⟩ := sorbates_change (i := i) (r0 := { sorbs := sorbs, stream := s, flow := flow, heat := i.heat, cap := g.solidCap })
    hs hg hdt hmax hl rfl g.n le_rfl
  rw [← ht] at h1
  have hmass : r.stream.mass = t.stream.mass := by
    show (update c g i sorbs s flow).stream.mass = _
    rw [hstr]
    rfl
  have hfl : r.flow = t.flow := hf
  have htc : ∀ j, 0 ≤ t.stream.tcMass j := by
    intro j
    by_cases hm : j ∈ (List.range g.n).flatMap (fun k => traceOf (g.props k))
    · exact h1.tc_nonneg j hm
    · rw [h1.tcMass j hm]
      exact hs.tc_nonneg j
  refine ⟨?_, ?_, ?_, ?_⟩
  · rw [hmass, hfl]
    have := h1.flow
    have h2 := hs.total
    simp only [] at this
    linarith
  · intro m
    rw [hmass]
    by_cases hm : m ∈ (List.range g.n).flatMap (fun k => bulkOf (g.props k))
    · exact h1.keep m hm
    · rw [h1.mass m hm]
      show s.mass m / 100 ≤ s.mass m
      linarith [hs.mass_nonneg m]
  · intro j
    show 0 ≤ (update c g i sorbs s flow).stream.tcMass j
    rw [hstr]
    obtain ⟨f, hfj⟩ : ∃ f : K, (updateMass c t.stream).tcMass j = if f < dblEps then 0 else t.stream.tcMass j := ⟨_, rfl⟩
    rw [hfj]
    split_ifs
    · exact le_rfl
    · exact htc j
  · intro m hm
    rw [hmass]
    refine h1.mass m (fun hc => ?_)
    obtain ⟨k, hk, hk2⟩ := List.mem_flatMap.1 hc
    exact hm k (List.mem_range.1 hk) hk2

/-- What the sorbant gains of a compound in a step is what the stream loses of it, bulk and trace together, unless the rate
    is too small to count, and no more than 99% of what came in. -/
theorem c71_conserved {c : Compounds K} {g : Segment K} {i : Inlet K} {s : Stream K} {flow : K} {sorbs : ℕ → Sorbate K}
    (hs : Carries c s flow) (hg : Fits c g) (hdt : 0 < i.dt) (hmax : 0 ≤ i.fltMax)
    (hl : ∀ k < g.n, 0 ≤ (sorbs k).loading) {k : ℕ} (hk : k < g.n) :
    let r := update c g i sorbs s flow
    let p := g.props k
    let gain := (r.sorbs k).loadedMass - (sorbs k).loading * effectiveVolume g * p.mw
    0 ≤ (r.sorbs k).loading ∧ gain = (r.sorbs k).adsorption * p.mw * i.dt
      ∧ (r.sorbs k).adsorption * p.mw ≤ 99 / 100 * (opt s.mass p.fluid + opt s.tcMass p.tc)
      ∧ (dblEps < |(r.sorbs k).adsorption| → (∀ j, p.tc = some j → r.stream.tcX j ≠ 0) →
        (opt s.mass p.fluid + opt s.tcMass p.tc - (opt r.stream.mass p.fluid + opt r.stream.tcMass p.tc)) * i.dt = gain)
      ∧ (|(r.sorbs k).adsorption| ≤ dblEps → (∀ j, p.tc = some j → r.stream.tcX j ≠ 0) →
        opt r.stream.mass p.fluid + opt r.stream.tcMass p.tc = opt s.mass p.fluid + opt s.tcMass p.tc) := by
  intro r p gain
  obtain ⟨t, ht, hsr, -, -, hstr⟩ := run_of c g i sorbs s flow
  obtain ⟨-, -, -, h4⟩ := sorbates_change (i := i) (r0 := { sorbs := sorbs, stream := s, flow := flow, heat := i.heat, cap := g.solidCap })
    hs hg hdt hmax hl rfl g.n le_rfl
  rw [← ht] at h4
  obtain ⟨ld, own, -⟩ := h4 k hk
  have hrs : r.sorbs = t.sorbs := hsr
  have hmass : opt r.stream.mass p.fluid = opt t.stream.mass p.fluid := by
    show opt (update c g i sorbs s flow).stream.mass p.fluid = _
    rw [hstr]
    rfl
  have htc : (∀ j, p.tc = some j → r.stream.tcX j ≠ 0) → opt r.stream.tcMass p.tc = opt t.stream.tcMass p.tc := by
    intro h
    have hr : r.stream = updateMass c t.stream := hstr
    cases hp : p.tc with
    | none => rfl
    | some j =>
      have := h j hp
      rw [hr] at this ⊢
      exact updateMass_tc this
  have hgain : gain = (r.sorbs k).adsorption * p.mw * i.dt := by
    show (r.sorbs k).loadedMass - (sorbs k).loading * effectiveVolume g * p.mw = _
    rw [hrs, ld.mass, ld.exact, ld.adsorption]
    ring
  have hin : inflow p s flow * p.mw = opt s.mass p.fluid + opt s.tcMass p.tc := by
    unfold inflow ndotBulk ndotTc
    rw [add_mul]
    congr 1
    · cases hp : p.fluid with
      | none => exact zero_mul _
      | some m =>
        simp only []
        rw [hg.ownBulk k hk m hp]
        exact hs.x m
    · cases hp : p.tc with
      | none => exact zero_mul _
      | some m =>
        simp only []
        rw [hg.ownTc k hk m hp]
        exact hs.tcX m
  have hpos : 0 < p.mw := by
    cases h : p.fluid with
    | some m => rw [show p.mw = c.mw m from hg.ownBulk k hk m h]; exact hg.mw m
    | none =>
      cases h' : p.tc with
      | some j => rw [show p.mw = c.mwTc j from hg.ownTc k hk j h']; exact hg.mwTc j
      | none =>
        have := hg.present k hk
        rcases this with h2 | h2
        · exact absurd h h2
        · exact absurd h' h2
  refine ⟨by rw [hrs]; exact ld.nonneg, hgain, ?_, ?_, ?_⟩
  · rw [← hin, hrs]
    have := mul_le_mul_of_nonneg_right ld.le hpos.le
    unfold limitFraction at this
    rw [← mul_assoc]
    exact this
  · intro ha htx
    rw [hgain, hmass, htc htx, own, hrs]
    have : dead (t.sorbs k).adsorption = (t.sorbs k).adsorption := by
      unfold dead
      rw [← hrs, if_neg (not_le.2 ha)]
    rw [this]
    ring
  · intro ha htx
    rw [hmass, htc htx, own]
    have : dead (t.sorbs k).adsorption = 0 := by
      unfold dead
      rw [← hrs, if_pos ha]
    rw [this]
    ring

omit [IsStrictOrderedRing K] in
/-- What is in the bulk and what is in the trace count alike: a sorbate that is both sorbs the same from streams that have the
    same sum of both. -/
theorem c71_bulk_and_trace (g : Segment K) (i : Inlet K) (ndot : K) (s t : Stream K) (sorbs : ℕ → Sorbate K) (k m j : ℕ)
    (hf : (g.props k).fluid = some m) (ht : (g.props k).tc = some j) (h : s.x m + s.tcX j = t.x m + t.tcX j) :
    sorb g i ndot s sorbs k = sorb g i ndot t sorbs k := by
  have e : moleFraction (g.props k) s = moleFraction (g.props k) t := by
    unfold moleFraction
    simp only [hf, ht]
    exact h
  have e2 : ndotBulk (g.props k) s ndot + ndotTc (g.props k) s ndot = ndotBulk (g.props k) t ndot + ndotTc (g.props k) t ndot := by
    unfold ndotBulk ndotTc
    simp only [hf, ht]
    rw [← mul_add, ← mul_add, h]
  unfold sorb
  simp only [e, e2]

/-- Desorption stops at saturation: of a bulk compound no more leaves with the stream than makes its saturation pressure at the
    outlet, or than came in. -/
theorem c71_saturation (g : Segment K) (i : Inlet K) (ndot : K) (s : Stream K) (sorbs : ℕ → Sorbate K) (k m : ℕ)
    (hf : (g.props k).fluid = some m) (hdt : 0 < i.dt) (hl : 0 ≤ (sorbs k).loading) (hv : 0 < g.volume)
    (hp : dblEps ≤ i.pOut)
    (hin : 0 ≤ ndotBulk (g.props k) s ndot + ndotTc (g.props k) s ndot) :
    let ndotIn := ndotBulk (g.props k) s ndot + ndotTc (g.props k) s ndot
    ndotIn - (sorb g i ndot s sorbs k).rate * g.volume ≤ max ndotIn (ndot * (g.props k).pSat i.tOut / i.pOut) := by
  intro ndotIn
  have hd : 0 ≤ desorbLimit (g.props k) i ndot ndotIn / g.volume := by
    apply div_nonneg _ hv.le
    unfold desorbLimit
    simp only [hf]
    exact le_max_left _ _
  have h : -(desorbLimit (g.props k) i ndot ndotIn / g.volume) ≤ (sorb g i ndot s sorbs k).rate :=
    (neg_le_rate (km := (g.props k).km) (s := updateEquil (g.props k) (i.pIn * moleFraction (g.props k) s) i.tAvg sorbs (sorbs k))
      hdt hl (div_nonneg hin hv.le) hd).2
  have h2 : -(desorbLimit (g.props k) i ndot ndotIn) ≤ (sorb g i ndot s sorbs k).rate * g.volume := by
    have := mul_le_mul_of_nonneg_right h hv.le
    rwa [neg_mul, div_mul_cancel₀ _ hv.ne'] at this
  have h3 : desorbLimit (g.props k) i ndot ndotIn = max 0 (ndot * (g.props k).pSat i.tOut / i.pOut - ndotIn) := by
    unfold desorbLimit
    simp only [hf]
    rw [max_eq_left hp]
  rw [h3] at h2
  rcases max_choice 0 (ndot * (g.props k).pSat i.tOut / i.pOut - ndotIn) with c | c
  · rw [c] at h2
    exact le_max_of_le_left (by linarith)
  · rw [c] at h2
    exact le_max_of_le_right (by linarith)


/-- The compounds given off with an adsorption: each mole adsorbed puts the given number of moles into the stream. -/
theorem c71_offgas {c : Compounds K} {g : Segment K} {i : Inlet K} {s : Stream K} {flow : K} {sorbs : ℕ → Sorbate K}
    (hs : Carries c s flow) (hg : Fits c g) (hdt : 0 < i.dt) (hmax : 0 ≤ i.fltMax)
    (hl : ∀ k < g.n, 0 ≤ (sorbs k).loading) {k : ℕ} (hk : k < g.n) {o : Offgas K} (ho : o ∈ (g.props k).offgas) {m : ℕ}
    (hm : o.fluid = some m) (hn : o.tc = none) :
    let r := update c g i sorbs s flow
    let a := (r.sorbs k).adsorption
    (dblEps < a → dblEps < a * o.interaction → r.stream.mass m = s.mass m + a * o.interaction * c.mw m)
      ∧ (a ≤ dblEps → r.stream.mass m = s.mass m) := by
  intro r a
  obtain ⟨t, ht, hsr, -, -, hstr⟩ := run_of c g i sorbs s flow
  obtain ⟨-, -, -, h4⟩ := sorbates_change (i := i) (r0 := { sorbs := sorbs, stream := s, flow := flow, heat := i.heat, cap := g.solidCap })
    hs hg hdt hmax hl rfl g.n le_rfl
  rw [← ht] at h4
  obtain ⟨-, -, off⟩ := h4 k hk
  have hrs : r.sorbs = t.sorbs := hsr
  have hmass : r.stream.mass = t.stream.mass := by
    show (update c g i sorbs s flow).stream.mass = _
    rw [hstr]
    rfl
  have h := off o ho (Or.inl (by rw [hm]; simp))
  rw [hm, hn] at h
  simp only [opt, add_zero] at h
  have ha : a = (t.sorbs k).adsorption := by
    show (r.sorbs k).adsorption = _
    rw [hrs]
  rw [← ha] at h
  rw [hmass, h]
  constructor
  · intro h1 h2
    rw [if_pos h1]
    have hd : dead (a * o.interaction) = a * o.interaction := by
      unfold dead
      rw [if_neg]
      rw [not_le]
      exact lt_of_lt_of_le h2 (le_abs_self _)
    have hw : offMw c o = c.mw m := by
      unfold offMw
      rw [hn, hm]
    rw [hd, hw]
  · intro h1
    rw [if_neg (not_lt.2 h1), add_zero]

/-- The heat into the sorbant is that of convection and of the sorption of each sorbate. -/
theorem c71_heat {c : Compounds K} {g : Segment K} {i : Inlet K} {s : Stream K} {flow : K} {sorbs : ℕ → Sorbate K}
    (hs : Carries c s flow) (hg : Fits c g) (hdt : 0 < i.dt) (hmax : 0 ≤ i.fltMax)
    (hl : ∀ k < g.n, 0 ≤ (sorbs k).loading) :
    (update c g i sorbs s flow).heat = i.heat
      - ∑ k ∈ range g.n, ((update c g i sorbs s flow).sorbs k).adsorption * (g.props k).dh * 1000000 := by
  obtain ⟨t, ht, hsr, -, hh, -⟩ := run_of c g i sorbs s flow
  obtain ⟨-, -, h3, -⟩ := sorbates_change (i := i) (r0 := { sorbs := sorbs, stream := s, flow := flow, heat := i.heat, cap := g.solidCap })
    hs hg hdt hmax hl rfl g.n le_rfl
  rw [← ht] at h3
  rw [hh, h3, hsr, ← sub_neg_eq_add, ← Finset.sum_neg_distrib]
  congr 1
  refine Finset.sum_congr rfl (fun k _ => ?_)
  ring

/-- The stream out of a segment is again one that carries its flow, so it can enter the next. -/
theorem c71_carries {c : Compounds K} {g : Segment K} {i : Inlet K} {s : Stream K} {flow : K} {sorbs : ℕ → Sorbate K}
    (hs : Carries c s flow) (hg : Fits c g) (hdt : 0 < i.dt) (hmax : 0 ≤ i.fltMax)
    (hl : ∀ k < g.n, 0 ≤ (sorbs k).loading) (h1 : 100 * dblEps ≤ ∑ m ∈ range c.n, s.mass m)
    (h2 : 100 * dblEps ≤ ∑ m ∈ range c.n, s.mass m / c.mw m) :
    Carries c (update c g i sorbs s flow).stream (update c g i sorbs s flow).flow := by
  obtain ⟨hf, hkeep, -, -⟩ := c71_stream (i := i) hs hg hdt hmax hl
  obtain ⟨t, ht, hsr, hfl, hh, hstr⟩ := run_of c g i sorbs s flow
  obtain ⟨hc, -, -, -⟩ := sorbates_change (i := i) (r0 := { sorbs := sorbs, stream := s, flow := flow, heat := i.heat, cap := g.solidCap })
    hs hg hdt hmax hl rfl g.n le_rfl
  rw [← ht] at hc
  have hmass : (update c g i sorbs s flow).stream.mass = t.stream.mass := by rw [hstr]; rfl
  rw [hmass] at hf hkeep
  rw [hstr]
  have k1 : ∑ m ∈ range c.n, s.mass m / 100 ≤ ∑ m ∈ range c.n, t.stream.mass m :=
    Finset.sum_le_sum (fun m _ => hkeep m)
  have k2 : ∑ m ∈ range c.n, s.mass m / c.mw m / 100 ≤ ∑ m ∈ range c.n, t.stream.mass m / c.mw m := by
    refine Finset.sum_le_sum (fun m _ => ?_)
    have := div_le_div_of_nonneg_right (hkeep m) (hg.mw m).le
    calc s.mass m / c.mw m / 100 = s.mass m / 100 / c.mw m := by ring
      _ ≤ _ := this
  rw [← Finset.sum_div] at k1 k2
  refine updateMass_carries hg.mw hg.mwTc ?_ ?_ hf (by linarith) (by linarith)
  · intro m
    have h3 := hs.mass_nonneg m
    exact le_trans (by linarith) (hkeep m)
  · intro j
    by_cases hm : j ∈ (List.range g.n).flatMap (fun k => traceOf (g.props k))
    · exact hc.tc_nonneg j hm
    · rw [hc.tcMass j hm]
      exact hs.tc_nonneg j

/-! ## The bed -/

/-- The mass flow of a bulk compound that a segment takes. -/
def takenBy (g : Segment K) (sorbs : ℕ → Sorbate K) (m : ℕ) : K :=
  ∑ k ∈ range g.n, if (g.props k).fluid = some m then dead (sorbs k).adsorption * (g.props k).mw else 0

private theorem segment_taken {c : Compounds K} {g : Segment K} {i : Inlet K} {s : Stream K} {flow : K}
    {sorbs : ℕ → Sorbate K} (hs : Carries c s flow) (hg : Fits c g) (hdt : 0 < i.dt) (hmax : 0 ≤ i.fltMax)
    (hl : ∀ k < g.n, 0 ≤ (sorbs k).loading) (hbulk : ∀ k < g.n, (g.props k).tc = none ∧ (g.props k).offgas = []) (m : ℕ) :
    (update c g i sorbs s flow).stream.mass m = s.mass m - takenBy g (update c g i sorbs s flow).sorbs m := by
  by_cases h : ∃ k < g.n, (g.props k).fluid = some m
  · obtain ⟨k, hk, hkm⟩ := h
    have huniq : ∀ j < g.n, j ≠ k → (g.props j).fluid ≠ some m := by
      intro j hj hjk hc
      have hmem : ∀ n, (g.props n).fluid = some m → m ∈ bulkOf (g.props n) := by
        intro n hn
        unfold bulkOf
        rw [hn]
        simp
      rcases lt_or_gt_of_ne hjk with hlt | hlt
      · exact once_disjoint hg.bulkOnce hlt hk (hmem j hc) (hmem k hkm)
      · exact once_disjoint hg.bulkOnce hlt hj (hmem k hkm) (hmem j hc)
    have e : takenBy g (update c g i sorbs s flow).sorbs m
        = dead ((update c g i sorbs s flow).sorbs k).adsorption * (g.props k).mw := by
      unfold takenBy
      rw [Finset.sum_eq_single k]
      · rw [if_pos hkm]
      · intro j hj hjk
        rw [if_neg (huniq j (Finset.mem_range.1 hj) hjk)]
      · intro hc
        exact absurd (Finset.mem_range.2 hk) hc
    rw [e]
    obtain ⟨-, h2, -, h4, h5⟩ := c71_conserved (i := i) hs hg hdt hmax hl hk
    have htc := (hbulk k hk).1
    rw [hkm, htc] at h4 h5
    simp only [opt, add_zero] at h4 h5
    by_cases ha : |((update c g i sorbs s flow).sorbs k).adsorption| ≤ dblEps
    · rw [h5 ha (fun j hj => absurd hj (by simp))]
      unfold dead
      rw [if_pos ha]
      ring
    · have h6 := h4 (not_le.1 ha) (fun j hj => absurd hj (by simp))
      rw [h2] at h6
      have h7 := mul_right_cancel₀ hdt.ne' h6
      unfold dead
      rw [if_neg ha, ← h7]
      ring
  · push Not at h
    have e : takenBy g (update c g i sorbs s flow).sorbs m = 0 := by
      unfold takenBy
      refine Finset.sum_eq_zero (fun k hk => ?_)
      rw [if_neg (h k (Finset.mem_range.1 hk))]
    obtain ⟨-, -, -, h4⟩ := c71_stream (i := i) hs hg hdt hmax hl
    rw [e, sub_zero]
    refine h4 m (fun k hk hc => ?_)
    unfold bulkOf at hc
    rw [(hbulk k hk).2] at hc
    simp at hc
    exact h k hk hc

/-- The bed: through any number of segments and in either direction, the flow that leaves is the sum of the masses of its
    compounds, no loading goes below zero, and of every bulk compound what leaves and what the segments take is what came
    in. -/
theorem c71_bed {c : Compounds K} {segs : ℕ → Segment K} {inlet : ℕ → Stream K → Inlet K} {n : ℕ} {b : Bed K}
    (forward : Bool) (hs : Carries c b.stream b.flow) (hg : ∀ k < n, Fits c (segs k))
    (hdt : ∀ k s, 0 < (inlet k s).dt) (hmax : ∀ k s, 0 ≤ (inlet k s).fltMax)
    (hl : ∀ k < n, ∀ j < (segs k).n, 0 ≤ (b.sorbs k j).loading)
    (h1 : 100 ^ n * dblEps ≤ ∑ m ∈ range c.n, b.stream.mass m)
    (h2 : 100 ^ n * dblEps ≤ ∑ m ∈ range c.n, b.stream.mass m / c.mw m) :
    let b' := updateSegments c segs inlet n forward b
    Carries c b'.stream b'.flow ∧ (∀ k < n, ∀ j < (segs k).n, 0 ≤ (b'.sorbs k j).loading)
      ∧ ((∀ k < n, ∀ j < (segs k).n, ((segs k).props j).tc = none ∧ ((segs k).props j).offgas = []) →
        ∀ m, b'.stream.mass m + ∑ k ∈ range n, takenBy (segs k) (b'.sorbs k) m = b.stream.mass m) := by
  intro b'
  obtain ⟨σ, hσ⟩ : ∃ σ : ℕ → ℕ, σ = fun k => if forward then k else n - 1 - k := ⟨_, rfl⟩
  have hσn : ∀ q < n, σ q < n := by
    intro q hq
    rw [hσ]
    dsimp only
    split_ifs <;> omega
  have hσi : ∀ p < n, ∀ q < n, σ p = σ q → p = q := by
    intro p hp q hq h
    rw [hσ] at h
    dsimp only at h
    split_ifs at h <;> omega
  have hb' : b' = loop (fun k => bedStep c segs inlet (σ k)) n b := by rw [hσ]; rfl
  have hc0 : ∀ k < n, ∀ m, 0 < c.mw m := fun k hk => (hg k hk).mw
  have inv : ∀ q ≤ n, Carries c (loop (fun k => bedStep c segs inlet (σ k)) q b).stream
        (loop (fun k => bedStep c segs inlet (σ k)) q b).flow
      ∧ (∀ k, (∀ p < q, σ p ≠ k) → (loop (fun k => bedStep c segs inlet (σ k)) q b).sorbs k = b.sorbs k)
      ∧ (∀ p < q, ∀ j < (segs (σ p)).n, 0 ≤ ((loop (fun k => bedStep c segs inlet (σ k)) q b).sorbs (σ p) j).loading)
      ∧ 100 ^ (n - q) * dblEps ≤ ∑ m ∈ range c.n, (loop (fun k => bedStep c segs inlet (σ k)) q b).stream.mass m
      ∧ 100 ^ (n - q) * dblEps ≤ ∑ m ∈ range c.n, (loop (fun k => bedStep c segs inlet (σ k)) q b).stream.mass m / c.mw m
      ∧ ((∀ k < n, ∀ j < (segs k).n, ((segs k).props j).tc = none ∧ ((segs k).props j).offgas = []) →
        ∀ m, (loop (fun k => bedStep c segs inlet (σ k)) q b).stream.mass m
          + ∑ p ∈ range q, takenBy (segs (σ p)) ((loop (fun k => bedStep c segs inlet (σ k)) q b).sorbs (σ p)) m
            = b.stream.mass m) := by
    intro q
    induction q with
    | zero =>
      intro _
      refine ⟨hs, fun _ _ => rfl, fun p hp => absurd hp (by omega), by simpa using h1, by simpa using h2, ?_⟩
      intro _ m
      simp
    | succ q ih =>
      intro hq
      obtain ⟨j1, j2, j3, j4, j5, j6⟩ := ih (by omega)
      obtain ⟨t, ht⟩ : ∃ t, t = loop (fun k => bedStep c segs inlet (σ k)) q b := ⟨_, rfl⟩
      rw [← ht] at j1 j2 j3 j4 j5 j6
      obtain ⟨u, hu⟩ : ∃ u, u = update c (segs (σ q)) (inlet (σ q) t.stream) (t.sorbs (σ q)) t.stream t.flow := ⟨_, rfl⟩
      have e : loop (fun k => bedStep c segs inlet (σ k)) (q + 1) b
          = { sorbs := Function.update t.sorbs (σ q) u.sorbs
              stream := u.stream
              flow := u.flow } := by
        rw [loop_succ, ← ht, hu]
        rfl
      have hkq : σ q < n := hσn q (by omega)
      have hfit := hg _ hkq
      have hnew : ∀ p < q, σ p ≠ σ q := fun p hp h => by
        have := hσi p (by omega) q (by omega) h
        omega
      have hlq : ∀ j < (segs (σ q)).n, 0 ≤ (t.sorbs (σ q) j).loading := by
        intro j hj
        rw [j2 _ hnew]
        exact hl _ hkq j hj
      have hpow : (100 : K) ^ (n - q) = 100 ^ (n - (q + 1)) * 100 := by
        rw [← pow_succ]
        congr 1
        omega
      have hone : (1 : K) ≤ 100 ^ (n - (q + 1)) := one_le_pow₀ (by norm_num)
      have eps : (0 : K) < dblEps := dblEps_pos
      rw [hpow] at j4 j5
      have l1 : 100 * dblEps ≤ ∑ m ∈ range c.n, t.stream.mass m := le_trans (by nlinarith) j4
      have l2 : 100 * dblEps ≤ ∑ m ∈ range c.n, t.stream.mass m / c.mw m := le_trans (by nlinarith) j5
      have hcar := c71_carries (i := inlet (σ q) t.stream) j1 hfit (hdt _ _) (hmax _ _) hlq l1 l2
      obtain ⟨-, hkeep, -, -⟩ := c71_stream (i := inlet (σ q) t.stream) j1 hfit (hdt _ _) (hmax _ _) hlq
      have htake := fun h => segment_taken (i := inlet (σ q) t.stream) j1 hfit (hdt _ _) (hmax _ _) hlq h
      have hcons := fun j (hj : j < (segs (σ q)).n) =>
        (c71_conserved (i := inlet (σ q) t.stream) j1 hfit (hdt _ _) (hmax _ _) hlq hj).1
      rw [← hu] at hcar hkeep htake
      rw [e]
      refine ⟨hcar, ?_, ?_, ?_, ?_, ?_⟩
      · intro k hk
        have hne : k ≠ σ q := fun h => hk q (by omega) h.symm
        show Function.update t.sorbs (σ q) u.sorbs k = _
        rw [Function.update_of_ne hne]
        exact j2 k (fun p hp => hk p (by omega))
      · intro p hp j hj
        show 0 ≤ (Function.update t.sorbs (σ q) u.sorbs (σ p) j).loading
        by_cases hpq : p = q
        · subst hpq
          rw [Function.update_self, hu]
          exact hcons j hj
        · have hlt : p < q := by omega
          rw [Function.update_of_ne (hnew p hlt)]
          exact j3 p hlt j hj
      · have : ∑ m ∈ range c.n, t.stream.mass m / 100 ≤ ∑ m ∈ range c.n, u.stream.mass m :=
          Finset.sum_le_sum (fun m _ => hkeep m)
        rw [← Finset.sum_div] at this
        show _ ≤ ∑ m ∈ range c.n, u.stream.mass m
        linarith
      · have : ∑ m ∈ range c.n, t.stream.mass m / c.mw m / 100 ≤ ∑ m ∈ range c.n, u.stream.mass m / c.mw m := by
          refine Finset.sum_le_sum (fun m _ => ?_)
          have := div_le_div_of_nonneg_right (hkeep m) (hfit.mw m).le
          calc t.stream.mass m / c.mw m / 100 = t.stream.mass m / 100 / c.mw m := by ring
            _ ≤ _ := this
        rw [← Finset.sum_div] at this
        show _ ≤ ∑ m ∈ range c.n, u.stream.mass m / c.mw m
        linarith
      · intro hb m
        show u.stream.mass m
          + ∑ p ∈ range (q + 1), takenBy (segs (σ p)) (Function.update t.sorbs (σ q) u.sorbs (σ p)) m = _
        rw [Finset.sum_range_succ, Function.update_self, htake (hb _ hkq) m, ← j6 hb m]
        have : ∑ p ∈ range q, takenBy (segs (σ p)) (Function.update t.sorbs (σ q) u.sorbs (σ p)) m
            = ∑ p ∈ range q, takenBy (segs (σ p)) (t.sorbs (σ p)) m := by
          refine Finset.sum_congr rfl (fun p hp => ?_)
          rw [Function.update_of_ne (hnew p (Finset.mem_range.1 hp))]
        rw [this]
        ring
  obtain ⟨f1, -, f3, -, -, f6⟩ := inv n le_rfl
  rw [← hb'] at f1 f3 f6
  refine ⟨f1, ?_, ?_⟩
  · intro k hk
    obtain ⟨p, hp, hpk⟩ : ∃ p < n, σ p = k := by
      cases forward with
      | true => exact ⟨k, hk, by rw [hσ]; rfl⟩
      | false =>
        refine ⟨n - 1 - k, by omega, ?_⟩
        rw [hσ]
        show n - 1 - (n - 1 - k) = k
        omega
    rw [← hpk]
    exact f3 p hp
  · intro hb m
    rw [← f6 hb m]
    congr 1
    cases forward with
    | true =>
      refine Finset.sum_congr rfl (fun p _ => ?_)
      have : σ p = p := by rw [hσ]; rfl
      rw [this]
    | false =>
      rw [← Finset.sum_range_reflect]
      refine Finset.sum_congr rfl (fun p _ => ?_)
      have : σ p = n - 1 - p := by rw [hσ]; rfl
      rw [this]

omit [LinearOrder K] [IsStrictOrderedRing K] in
/-- The masses reported by the bed are the sums over its segments and sorbates. -/
theorem c71_reported (segs : ℕ → Segment K) (sorbs : ℕ → ℕ → Sorbate K) (n m : ℕ) :
    adsorbedMass segs sorbs n m = ∑ i ∈ range n, ∑ j ∈ range (segs i).n,
      if ((segs i).props j).fluid = some m then (sorbs i j).loadedMass else 0 := by
  have inner : ∀ i l (a : K), loop (fun j a => if ((segs i).props j).fluid = some m then a + (sorbs i j).loadedMass else a) l a
      = a + ∑ j ∈ range l, if ((segs i).props j).fluid = some m then (sorbs i j).loadedMass else 0 := by
    intro i l a
    induction l with
    | zero => simp
    | succ l ih =>
      rw [loop_succ, ih, Finset.sum_range_succ]
      split_ifs <;> ring
  unfold adsorbedMass
  induction n with
  | zero => simp
  | succ n ih => rw [loop_succ, ih, inner, Finset.sum_range_succ]

/-- The pressures used for the segments fall by the drop over the bed in proportion to their volumes, down to the exit
    pressure behind the last. -/
theorem c71_pressures (p0 drop : K) (volume : ℕ → K) (n : ℕ) (h : 0 < ∑ k ∈ range n, volume k) :
    segmentPressure p0 drop (∑ k ∈ range n, volume k) volume n = p0 - |drop| := by
  have e : ∀ (t : K) k, segmentPressure p0 drop t volume k = p0 - |drop| / t * ∑ m ∈ range k, volume m := by
    intro t k
    unfold segmentPressure
    induction k with
    | zero => simp
    | succ k ih => rw [loop_succ, ih, Finset.sum_range_succ]; ring
  rw [e, div_mul_cancel₀ _ h.ne']

end

/-! ## Failures and cases -/

private def gas : Compounds ℚ :=
  { n := 4
    nTc := 0
    mw := fun _ => 1
    mwTc := fun _ => 1 }

/-- Two parts of flow, of compounds 0 and 1. -/
private def inFlow : Stream ℚ :=
  { mass := fun k => if k < 2 then 1 else 0
    x := fun k => if k < 2 then 1 / 2 else 0
    w := fun k => if k < 2 then 1 / 2 else 0
    mw := 1
    tcMass := fun _ => 0
    tcX := fun _ => 0 }

private def holder (equil km : ℚ) (k : ℕ) (off : Option ℕ) : Props ℚ :=
  { equil := fun _ _ => equil
    km := km
    dh := -40
    mw := 1
    fluid := some k
    tc := none
    blocking := []
    offgas := off.toList.map (fun m => { fluid := some m, tc := none, interaction := 1 })
    pSat := fun _ => 1000
    cp := fun _ => 1 }

/-- A segment that holds compounds 0 and 1 and gives off `off 0` and `off 1`. -/
private def seg (equil km : ℚ) (off : ℕ → Option ℕ) : Segment ℚ :=
  { n := 2
    props := fun k => holder equil km k (off k)
    volume := 1
    degradeFlag := false
    degradeValue := 0
    solidCap := 1
    temperature := 300 }

private def at1 : Inlet ℚ :=
  { pIn := 100
    pOut := 99
    tAvg := 300
    tOut := 300
    dt := 1
    heat := 0
    fltMax := 1000000 }

private def clean : ℕ → Sorbate ℚ := fun _ =>
  { malfFlag := false
    malfValue := 0
    loading := 0
    equil := 0
    rate := 0
    fraction := 0
    loadedMass := 0
    adsorption := 0 }

/-- Failure: when two sorbates give off the same compound, the second write undoes the first. A tenth of each of two
    compounds is adsorbed and two tenths of a third given off. The flow says 2, but the compounds sum to 1.9. -/
theorem c71_offgas_lost :
    let r := update gas (seg 10 (1 / 100) (fun _ => some 2)) at1 clean inFlow 2
    Carries gas inFlow 2 ∧ r.flow = 2 ∧ r.stream.mass 0 = 9 / 10 ∧ r.stream.mass 1 = 9 / 10 ∧ r.stream.mass 2 = 1 / 10
      ∧ r.stream.mass 3 = 0 ∧ r.flow ≠ ∑ m ∈ range gas.n, r.stream.mass m := by
  refine ⟨⟨fun k => ?_, fun j => le_rfl, by decide +kernel, fun k => ?_, fun k => ?_, fun j => by simp [inFlow]⟩,
    by decide +kernel, by decide +kernel, by decide +kernel, by decide +kernel, by decide +kernel, by decide +kernel⟩
  · unfold inFlow
    dsimp only
    split_ifs <;> norm_num
  · unfold inFlow gas
    dsimp only
    split_ifs <;> norm_num
  · unfold inFlow
    dsimp only
    split_ifs <;> norm_num

/-- Failure: a rate too small to count is still loaded, so the sorbant gains what the stream does not lose. -/
theorem c71_trickle :
    let r := update gas (seg (1 / 2) dblEps (fun _ => none)) at1 clean inFlow 2
    0 < (r.sorbs 0).loading ∧ r.stream.mass 0 = inFlow.mass 0 := by
  refine ⟨by decide +kernel, by decide +kernel⟩

/-- Failure: a sorbant with a porosity of 1 is accepted, which leaves no sorbant volume to divide by. -/
theorem c71_porosity : sorbantAccepted (1 : ℚ) 1 1 = true ∧ sorbantVolume (1 : ℚ) 5 = 0 := by decide +kernel

private theorem seg_fits : Fits gas (seg 10 (1 / 100) (fun k => some (k + 2))) where
  volume := by norm_num [seg]
  mw := fun _ => by norm_num [gas]
  mwTc := fun _ => by norm_num [gas]
  present := fun k _ => Or.inl (by simp [seg, holder])
  inBulk := fun k hk m hm => by
    have hk2 : k < 2 := hk
    simp [seg, holder, bulkOf] at hm
    show m < 4
    omega
  ownBulk := fun k _ m _ => rfl
  ownTc := fun k _ m h => absurd h (by simp [seg, holder])
  interaction := fun k _ o ho => by
    simp [seg, holder] at ho
    rw [ho]
    norm_num
  offgas := fun k _ o ho m j _ hj => by
    simp [seg, holder] at ho
    rw [ho] at hj
    simp at hj
  bulkOnce := by decide +kernel
  tcOnce := by decide +kernel

/-- The hypotheses of `c71_stream` and those after it: a segment that holds two compounds and gives off two others, and the
    stream before it. -/
example : Carries gas inFlow 2 ∧ Fits gas (seg 10 (1 / 100) (fun k => some (k + 2))) ∧ 0 < at1.dt ∧ 0 ≤ at1.fltMax
    ∧ (∀ k < 2, 0 ≤ (clean k).loading)
    ∧ (update gas (seg 10 (1 / 100) (fun k => some (k + 2))) at1 clean inFlow 2).stream.mass 3 = 1 / 10 :=
  ⟨c71_offgas_lost.1, seg_fits, by decide +kernel, by decide +kernel, fun k _ => le_rfl, by decide +kernel⟩

example : (100 : ℚ) ^ 3 * dblEps ≤ ∑ m ∈ range gas.n, inFlow.mass m ∧
    (100 : ℚ) ^ 3 * dblEps ≤ ∑ m ∈ range gas.n, inFlow.mass m / gas.mw m := by decide +kernel

/-- The exponent of CO2 on 5A zeolite at 300 K is positive. -/
example : (0 : ℝ) < 2.700e-1 + -2.002e+1 / 300 := by norm_num

example : (updateLoading (1 / 4 : ℚ) 2 100 100 { clean 0 with
    equil := 8 }).loading = 4 ∧ (updateLoading (3 / 4 : ℚ) 2 100 100 { clean 0 with
    equil := 8 }).loading = 12 := by decide +kernel

example : sorbateAccepted (K := ℚ) 1 [(2, 1)] [(3, 1 / 2)] (1 / 100) = true
    ∧ sorbateAccepted (K := ℚ) 1 [(1, 1)] [] (1 / 100) = false := by decide +kernel

end Gunns.Props
