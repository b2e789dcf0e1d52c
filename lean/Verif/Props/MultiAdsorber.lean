import Verif.Fluid.MultiAdsorber
import Mathlib.Tactic.Linarith
import Mathlib.Tactic.FieldSimp
import Mathlib.Tactic.Ring
import Mathlib.Tactic.Positivity
import Mathlib.Algebra.BigOperators.Intervals

/-!
# C83: an adsorber of several compounds

The theorems are about `Gunns.MultiAdsorb.Compound.sorb`, one pass of a compound, `updateFluid`, one pass of the adsorber, and
sequences of passes of any length.
-/

namespace Gunns.Props

open Gunns.MultiAdsorb Gunns.Fluid
open Gunns.Adsorb (eps100 exitPort)

/-- The mass is between none and the capacity, and the filled fraction is its part of the capacity. -/
structure c83_Sound (c : Compound) : Prop where
  cap : dblEps ≤ c.maxMass
  low : 0 ≤ c.adsorbed
  high : c.adsorbed ≤ c.maxMass
  fill : c.fill = c.adsorbed / c.maxMass

private theorem sound_fill {c : Compound} (h : c83_Sound c) : 0 ≤ c.fill ∧ c.fill ≤ 1 := by
  have h0 : 0 < c.maxMass := lt_of_lt_of_le dblEps_pos h.cap
  rw [h.fill]
  exact ⟨div_nonneg h.low h0.le, (div_le_one h0).2 h.high⟩

private theorem limit_bounds (c : Compound) (dt r : ℝ) (h : c83_Sound c) (hd : 0 < dt) :
    -c.adsorbed ≤ c.limitRate dt r * dt ∧ c.limitRate dt r * dt ≤ c.maxMass - c.adsorbed := by
  have hroom : 0 ≤ (c.maxMass - c.adsorbed) / dt := div_nonneg (by linarith [h.high]) hd.le
  have hneg : -c.adsorbed / dt ≤ 0 := div_nonpos_of_nonpos_of_nonneg (by linarith [h.low]) hd.le
  unfold Compound.limitRate
  rw [← div_le_iff₀ hd, ← le_div_iff₀ hd]
  split_ifs with hr
  · exact ⟨le_trans hneg (le_min hr.le hroom), min_le_right _ _⟩
  · exact ⟨le_max_right _ _, max_le (le_trans (not_lt.1 hr) hroom) (le_trans hneg hroom)⟩

private theorem snap_bounds (x m : ℝ) (hx : dblEps ≤ x) (h0 : 0 ≤ m) (h1 : m ≤ x) :
    0 ≤ snap x m ∧ snap x m ≤ x ∧ |snap x m - m| < dblEps := by
  have he := dblEps_pos (K := ℝ)
  unfold snap
  split_ifs with ha hb
  · exact ⟨le_rfl, by linarith, by rw [zero_sub, abs_neg, abs_of_nonneg h0]; exact ha⟩
  · exact ⟨by linarith, le_rfl, by rw [abs_of_nonneg (by linarith)]; exact hb⟩
  · exact ⟨h0, h1, by rw [sub_self, abs_zero]; exact he⟩

private theorem store_sound (c : Compound) (dt r : ℝ) (h : c83_Sound c) (hd : 0 < dt) :
    c83_Sound (c.store dt (c.limitRate dt r)) ∧
    |(c.store dt (c.limitRate dt r)).adsorbed - c.adsorbed - c.limitRate dt r * dt| < dblEps := by
  have hb := limit_bounds c dt r h hd
  have hs := snap_bounds c.maxMass (c.adsorbed + c.limitRate dt r * dt) h.cap (by linarith) (by linarith)
  refine ⟨⟨h.cap, hs.1, hs.2.1, ?_⟩, ?_⟩
  · show _ / max c.maxMass dblEps = _ / c.maxMass
    rw [max_eq_left h.cap]
    rfl
  · have e : (c.store dt (c.limitRate dt r)).adsorbed - c.adsorbed - c.limitRate dt r * dt =
        snap c.maxMass (c.adsorbed + c.limitRate dt r * dt) - (c.adsorbed + c.limitRate dt r * dt) := by
      show snap _ _ - _ - _ = _
      ring
    rw [e]
    exact hs.2.2

/-- **C83, one compound.** Whatever the stream, the efficiency, the taper-off, the dependent compound and the malfunction, a
pass leaves the mass between none and the capacity, and changes it by its rate times the step, up to less than DBL_EPSILON. -/
theorem c83_books (c d : Compound) (s : Stream) (p : Pass) (f : Option ℝ) (h : c83_Sound c) (hd : 0 < p.dt)
    (hs : c.sorb s p f = some d) :
    c83_Sound d ∧ |d.adsorbed - c.adsorbed - d.rate * p.dt| < dblEps ∧
    (dblEps ≤ c.adsorbed + d.rate * p.dt → c.adsorbed + d.rate * p.dt ≤ c.maxMass - dblEps →
      d.adsorbed = c.adsorbed + d.rate * p.dt) ∧
    d.heat = -c.heatOf * d.rate * 1000000 / c.mw := by
  unfold Compound.sorb Compound.sorbRate at hs
  rw [Option.map_map, Option.map_eq_some_iff] at hs
  obtain ⟨r, -, hr⟩ := hs
  subst hr
  have hst := store_sound c p.dt (c.malfunction (dependOn f (c.taperOff r))) h hd
  refine ⟨hst.1, hst.2, ?_, rfl⟩
  intro h1 h2
  change dblEps ≤ c.adsorbed + c.limitRate p.dt (c.malfunction (dependOn f (c.taperOff r))) * p.dt at h1
  change c.adsorbed + c.limitRate p.dt (c.malfunction (dependOn f (c.taperOff r))) * p.dt ≤ _ at h2
  change snap c.maxMass (c.adsorbed + c.limitRate p.dt (c.malfunction (dependOn f (c.taperOff r))) * p.dt) =
    c.adsorbed + c.limitRate p.dt (c.malfunction (dependOn f (c.taperOff r))) * p.dt
  unfold snap
  rw [if_neg (not_lt.2 h1), if_neg (by linarith)]

/-! ## The rate -/

private theorem scale_pos {c : Compound} {f : Option ℝ} (hc : c83_Sound c) (hf : ∀ x, f = some x → 0 ≤ x ∧ x ≤ 1)
    (hm : ∀ v, c.malf = some v → 0 ≤ v ∧ v ≤ 1) (r : ℝ) (h : 0 ≤ r) :
    0 ≤ c.malfunction (dependOn f (c.taperOff r)) ∧ c.malfunction (dependOn f (c.taperOff r)) ≤ r := by
  have hfill := sound_fill hc
  have h1 : 0 ≤ c.taperOff r ∧ c.taperOff r ≤ r := by
    unfold Compound.taperOff
    split_ifs with ht hr
    · have hb : 0 ≤ (max 0.1 c.fill) ^ (Interp.limitRange 1 c.breakthrough 100) := by positivity
      have hb1 : (max 0.1 c.fill) ^ (Interp.limitRange 1 c.breakthrough 100) ≤ 1 := by
        apply Real.rpow_le_one (by positivity) (max_le (by norm_num) hfill.2)
        exact le_trans zero_le_one (le_max_right _ _)
      exact ⟨mul_nonneg h (by linarith), mul_le_of_le_one_right h (by linarith)⟩
    · exact ⟨mul_nonneg h hfill.1, mul_le_of_le_one_right h hfill.2⟩
    · exact ⟨h, le_rfl⟩
  have h2 : 0 ≤ dependOn f (c.taperOff r) ∧ dependOn f (c.taperOff r) ≤ c.taperOff r := by
    unfold dependOn
    cases f with
    | none => exact ⟨h1.1, le_rfl⟩
    | some x =>
      obtain ⟨x0, x1⟩ := hf x rfl
      dsimp only
      split_ifs
      · exact ⟨mul_nonneg h1.1 x0, mul_le_of_le_one_right h1.1 x1⟩
      · exact ⟨mul_nonneg h1.1 (by linarith), mul_le_of_le_one_right h1.1 (by linarith)⟩
  unfold Compound.malfunction
  cases hv : c.malf with
  | none =>
    show 0 ≤ _ * (1 : ℝ) ∧ _ * (1 : ℝ) ≤ _
    rw [mul_one]
    exact ⟨h2.1, by linarith [h1.2, h2.2]⟩
  | some v =>
    obtain ⟨v0, v1⟩ := hm v hv
    show 0 ≤ _ * v ∧ _ * v ≤ _
    exact ⟨mul_nonneg h2.1 v0, le_trans (mul_le_of_le_one_right h2.1 v1) (by linarith [h1.2, h2.2])⟩

private theorem scale_neg {c : Compound} {f : Option ℝ} (hc : c83_Sound c) (hf : ∀ x, f = some x → 0 ≤ x ∧ x ≤ 1)
    (hm : ∀ v, c.malf = some v → 0 ≤ v ∧ v ≤ 1) (r : ℝ) (h : r ≤ 0) :
    r ≤ c.malfunction (dependOn f (c.taperOff r)) ∧ c.malfunction (dependOn f (c.taperOff r)) ≤ 0 := by
  have hfill := sound_fill hc
  have key : ∀ a b : ℝ, a ≤ 0 → 0 ≤ b → b ≤ 1 → a ≤ a * b ∧ a * b ≤ 0 := by
    intro a b ha hb hb1
    exact ⟨by nlinarith, mul_nonpos_of_nonpos_of_nonneg ha hb⟩
  have h1 : r ≤ c.taperOff r ∧ c.taperOff r ≤ 0 := by
    unfold Compound.taperOff
    rw [if_neg (not_lt.2 h)]
    split_ifs
    · exact key r c.fill h hfill.1 hfill.2
    · exact ⟨le_rfl, h⟩
  have h2 : c.taperOff r ≤ dependOn f (c.taperOff r) ∧ dependOn f (c.taperOff r) ≤ 0 := by
    unfold dependOn
    cases f with
    | none => exact ⟨le_rfl, h1.2⟩
    | some x =>
      obtain ⟨x0, x1⟩ := hf x rfl
      dsimp only
      rw [if_neg (not_lt.2 h1.2)]
      exact key _ _ h1.2 (by linarith) (by linarith)
  unfold Compound.malfunction
  cases hv : c.malf with
  | none =>
    show _ ≤ _ * (1 : ℝ) ∧ _ * (1 : ℝ) ≤ 0
    rw [mul_one]
    exact ⟨by linarith [h1.1, h2.1], h2.2⟩
  | some v =>
    obtain ⟨v0, v1⟩ := hm v hv
    show _ ≤ _ * v ∧ _ * v ≤ 0
    have := key _ v h2.2 v0 v1
    exact ⟨by linarith [h1.1, h2.1], this.2⟩

/-- **C83, the rate.** With a malfunction value from 0 to 1: a compound at or above its desorption pressure with an efficiency that
is not negative adsorbs at most its efficiency of what passes through, so at most what passes, and never desorbs; below that
pressure it desorbs, at most in proportion to the missing pressure, and never adsorbs; above it with a negative efficiency it does
neither.  Without taper-off, dependent compound and malfunction, and with room or mass enough, these limits are the rates. -/
theorem c83_rate (c d : Compound) (s : Stream) (p : Pass) (f : Option ℝ) (h : c83_Sound c) (hd : 0 < p.dt)
    (hf : ∀ x, f = some x → 0 ≤ x ∧ x ≤ 1) (hm : ∀ v, c.malf = some v → 0 ≤ v ∧ v ≤ 1) (hk : 0 ≤ c.desorbFactor)
    (hs : c.sorb s p f = some d) :
    (c.desorbPressure ≤ c.partialPressure s p → 0 ≤ c.efficiency p.temp → ∀ m, c.through s p = some m → 0 ≤ m →
      0 ≤ d.rate ∧ d.rate ≤ c.efficiency p.temp * m ∧ d.rate ≤ m ∧
      (c.taper = false → f = none → c.malf = none → c.efficiency p.temp * m * p.dt ≤ c.maxMass - c.adsorbed →
        d.rate = c.efficiency p.temp * m)) ∧
    (c.partialPressure s p < c.desorbPressure →
      d.rate ≤ 0 ∧ -d.rate ≤ (c.desorbPressure - c.partialPressure s p) * c.desorbFactor * |c.efficiency p.temp| ∧
      -d.rate * p.dt ≤ c.adsorbed ∧
      (c.taper = false → f = none → c.malf = none →
        (c.desorbPressure - c.partialPressure s p) * c.desorbFactor * |c.efficiency p.temp| * p.dt ≤ c.adsorbed →
        -d.rate = (c.desorbPressure - c.partialPressure s p) * c.desorbFactor * |c.efficiency p.temp|)) ∧
    (c.desorbPressure ≤ c.partialPressure s p → c.efficiency p.temp < 0 → d.rate = 0) := by
  unfold Compound.sorb Compound.sorbRate at hs
  rw [Option.map_map, Option.map_eq_some_iff] at hs
  obtain ⟨r, hraw, hr⟩ := hs
  subst hr
  have hrate : (((c.store p.dt) ∘ fun r => c.limitRate p.dt (c.malfunction (dependOn f (c.taperOff r)))) r).rate =
      c.limitRate p.dt (c.malfunction (dependOn f (c.taperOff r))) := rfl
  rw [hrate]
  have hplain : c.taper = false → f = none → c.malf = none → c.malfunction (dependOn f (c.taperOff r)) = r := by
    intro h1 h2 h3
    unfold Compound.malfunction dependOn Compound.taperOff
    rw [h1, h2, h3]
    simp
  have hroom : 0 ≤ (c.maxMass - c.adsorbed) / p.dt := div_nonneg (by linarith [h.high]) hd.le
  have hneg : -c.adsorbed / p.dt ≤ 0 := div_nonpos_of_nonpos_of_nonneg (by linarith [h.low]) hd.le
  refine ⟨?_, ?_, ?_⟩
  · intro hp he m hthru hm0
    have hr : r = c.efficiency p.temp * m := by
      unfold Compound.rawRate at hraw
      rw [if_neg (by rintro (h1 | h1) <;> linarith), hthru] at hraw
      exact (Option.some.inj hraw).symm
    have hr0 : 0 ≤ r := by rw [hr]; positivity
    have he1 : c.efficiency p.temp ≤ 1 := max_le (min_le_right _ _) (by norm_num)
    have hsc := scale_pos h hf hm r hr0
    have hlim : 0 ≤ c.limitRate p.dt (c.malfunction (dependOn f (c.taperOff r))) ∧
        c.limitRate p.dt (c.malfunction (dependOn f (c.taperOff r))) ≤ c.malfunction (dependOn f (c.taperOff r)) := by
      unfold Compound.limitRate
      split_ifs with hpos
      · exact ⟨le_min hsc.1 hroom, min_le_left _ _⟩
      · have h0 : c.malfunction (dependOn f (c.taperOff r)) = 0 := le_antisymm (not_lt.1 hpos) hsc.1
        rw [h0, max_eq_left hneg]
        exact ⟨le_rfl, le_rfl⟩
    refine ⟨hlim.1, ?_, ?_, ?_⟩
    · rw [← hr]; linarith [hlim.2, hsc.2]
    · have : c.efficiency p.temp * m ≤ m := by nlinarith
      rw [← hr] at this
      linarith [hlim.2, hsc.2]
    · intro h1 h2 h3 h4
      rw [hplain h1 h2 h3, ← hr]
      rw [← hr, ← le_div_iff₀ hd] at h4
      unfold Compound.limitRate
      split_ifs with hpos
      · exact min_eq_left h4
      · have h0 : r = 0 := le_antisymm (not_lt.1 hpos) hr0
        rw [h0]
        exact max_eq_left hneg
  · intro hp
    have hr : r = (c.partialPressure s p - c.desorbPressure) * c.desorbFactor * |c.efficiency p.temp| := by
      unfold Compound.rawRate at hraw
      rw [if_pos (Or.inl hp), min_eq_right (by linarith)] at hraw
      exact (Option.some.inj hraw).symm
    have hr0 : r ≤ 0 := by
      rw [hr]
      have : 0 ≤ (c.desorbPressure - c.partialPressure s p) * c.desorbFactor * |c.efficiency p.temp| :=
        mul_nonneg (mul_nonneg (by linarith) hk) (abs_nonneg _)
      linarith
    have hsc := scale_neg h hf hm r hr0
    have hval : c.limitRate p.dt (c.malfunction (dependOn f (c.taperOff r))) =
        max (c.malfunction (dependOn f (c.taperOff r))) (-c.adsorbed / p.dt) := by
      unfold Compound.limitRate
      rw [if_neg (not_lt.2 hsc.2)]
    rw [hval]
    have hr' : -r = (c.desorbPressure - c.partialPressure s p) * c.desorbFactor * |c.efficiency p.temp| := by
      rw [hr]; ring
    refine ⟨max_le hsc.2 hneg, ?_, ?_, ?_⟩
    · rw [← hr']
      have := le_max_left (c.malfunction (dependOn f (c.taperOff r))) (-c.adsorbed / p.dt)
      linarith [hsc.1]
    · have := le_max_right (c.malfunction (dependOn f (c.taperOff r))) (-c.adsorbed / p.dt)
      rw [div_le_iff₀ hd] at this
      linarith
    · intro h1 h2 h3 h4
      rw [← hr'] at h4 ⊢
      rw [hplain h1 h2 h3, max_eq_left]
      rw [div_le_iff₀ hd]
      linarith
  · intro hp he
    have hr : r = 0 := by
      unfold Compound.rawRate at hraw
      rw [if_pos (Or.inr he), min_eq_left (by linarith), zero_mul, zero_mul] at hraw
      exact (Option.some.inj hraw).symm
    have hsc := scale_pos h hf hm 0 le_rfl
    have h0 : c.malfunction (dependOn f (c.taperOff r)) = 0 := by
      rw [hr]
      exact le_antisymm hsc.2 hsc.1
    rw [h0]
    unfold Compound.limitRate
    rw [if_neg (lt_irrefl _), max_eq_left hneg]

/-- **C83, the taper-off.** The adsorption left by the taper-off does not grow with the filled fraction, is none when full, and at
least nine tenths of the full rate below a tenth. -/
theorem c83_taper (c d : Compound) (r : ℝ) (hr : 0 < r) (ht : c.taper = true) (ht' : d.taper = true)
    (hb : d.breakthrough = c.breakthrough) (h : c.fill ≤ d.fill) :
    d.taperOff r ≤ c.taperOff r ∧ (c.fill = 1 → c.taperOff r = 0) ∧ (c.fill ≤ 1 / 10 → 9 / 10 * r ≤ c.taperOff r) := by
  have hx : ∀ e : Compound, e.taper = true → e.taperOff r =
      r * (1 - (max 0.1 e.fill) ^ (Interp.limitRange 1 e.breakthrough 100)) := by
    intro e he
    unfold Compound.taperOff
    rw [he, if_pos rfl, if_pos hr]
  have hexp : (1 : ℝ) ≤ Interp.limitRange 1 c.breakthrough 100 := le_max_right _ _
  rw [hx c ht, hx d ht', hb]
  refine ⟨?_, ?_, ?_⟩
  · apply mul_le_mul_of_nonneg_left _ hr.le
    apply sub_le_sub_left
    exact Real.rpow_le_rpow (by positivity) (max_le_max le_rfl h) (by linarith)
  · intro h1
    rw [h1, max_eq_right (by norm_num), Real.one_rpow]
    ring
  · intro h1
    have : (max 0.1 c.fill) ^ (Interp.limitRange 1 c.breakthrough 100) ≤ (1 / 10 : ℝ) := by
      rw [max_eq_left (by norm_num; linarith)]
      have := Real.rpow_le_rpow_of_exponent_ge (x := (0.1 : ℝ)) (by norm_num) (by norm_num) hexp
      rw [Real.rpow_one] at this
      linarith
    nlinarith

/-! ## All compounds -/

private theorem sorb_fields {c d : Compound} {s : Stream} {p : Pass} {f : Option ℝ} (hs : c.sorb s p f = some d) :
    d.trace = c.trace ∧ d.index = c.index ∧ d.mw = c.mw ∧ d.maxMass = c.maxMass ∧ d.heatOf = c.heatOf := by
  unfold Compound.sorb at hs
  rw [Option.map_eq_some_iff] at hs
  obtain ⟨r, -, hr⟩ := hs
  subst hr
  exact ⟨rfl, rfl, rfl, rfl, rfl⟩

private theorem all_step (s : Stream) (p : Pass) (n : ℕ) : ∀ (cs ds : ℕ → Compound), sorbAll s p n cs = some ds →
    (∀ i, n ≤ i → ds i = cs i) ∧ (∀ i, i < n → ∃ f, (cs i).sorb s p f = some (ds i)) := by
  induction n with
  | zero =>
    intro cs ds h
    cases h
    exact ⟨fun _ _ => rfl, fun i hi => absurd hi (Nat.not_lt_zero i)⟩
  | succ n ih =>
    intro cs ds h
    unfold sorbAll at h
    rw [Option.bind_eq_some_iff] at h
    obtain ⟨es, he, h2⟩ := h
    rw [Option.map_eq_some_iff] at h2
    obtain ⟨c, hc, h3⟩ := h2
    subst h3
    obtain ⟨k1, k2⟩ := ih cs es he
    refine ⟨?_, ?_⟩
    · intro i hi
      rw [Function.update_of_ne (by omega), k1 i (by omega)]
    · intro i hi
      by_cases hin : i = n
      · subst hin
        rw [Function.update_self, ← k1 i le_rfl]
        exact ⟨_, hc⟩
      · rw [Function.update_of_ne hin]
        exact k2 i (by omega)

private theorem sorbAll_fill (s : Stream) (p : Pass) (n : ℕ) (cs ds : ℕ → Compound) (hd : 0 < p.dt)
    (hsound : ∀ k < n, c83_Sound (cs k)) (h : sorbAll s p n cs = some ds) (i : ℕ) (hi : i < n)
    (hdep : ∀ j, (cs i).dependent = some j → j < n) :
    ∃ g : Option ℝ, (∀ x, g = some x → 0 ≤ x ∧ x ≤ 1) ∧ (cs i).sorb s p g = some (ds i) := by
  have key : ∀ m ≤ n, ∀ es, sorbAll s p m cs = some es → (∀ k < n, c83_Sound (es k)) ∧
      (∀ k < m, (∀ j, (cs k).dependent = some j → j < n) →
        ∃ g : Option ℝ, (∀ x, g = some x → 0 ≤ x ∧ x ≤ 1) ∧ (cs k).sorb s p g = some (es k)) := by
    intro m
    induction m with
    | zero =>
      intro _ es he
      cases he
      exact ⟨hsound, fun k hk => absurd hk (Nat.not_lt_zero k)⟩
    | succ m ih =>
      intro hm es he
      unfold sorbAll at he
      rw [Option.bind_eq_some_iff] at he
      obtain ⟨fs, hfs, h2⟩ := he
      rw [Option.map_eq_some_iff] at h2
      obtain ⟨c, hc, h3⟩ := h2
      subst h3
      obtain ⟨k1, k2⟩ := ih (by omega) fs hfs
      have hfm := (all_step s p m cs fs hfs).1 m le_rfl
      refine ⟨?_, ?_⟩
      · intro k hk
        by_cases hkm : k = m
        · subst hkm
          rw [Function.update_self]
          exact (c83_books _ _ s p _ (k1 k hk) hd hc).1
        · rw [Function.update_of_ne hkm]
          exact k1 k hk
      · intro k hk hj
        by_cases hkm : k = m
        · subst hkm
          rw [Function.update_self, ← hfm]
          refine ⟨_, ?_, hc⟩
          intro x hx
          rw [Option.map_eq_some_iff] at hx
          obtain ⟨j, hj1, hj2⟩ := hx
          rw [hfm] at hj1
          rw [← hj2]
          exact sound_fill (k1 j (hj j hj1))
        · rw [Function.update_of_ne hkm]
          exact k2 k (by omega) hj
  exact (key n le_rfl ds h).2 i hi hdep

/-- A sequence of passes, each with the state of the node that the flow comes from; for a pass of negligible flow that is the
internal fluid itself.  The result is the compounds and the internal fluid. -/
noncomputable def c83_run (n : ℕ) : (ℕ → Compound) → Stream → List (Stream × Pass) → Option ((ℕ → Compound) × Stream)
  | cs, s, [] => some (cs, s)
  | cs, s, (node, p) :: l =>
    (updateFluid cs n (nextStream s.tc node s) p).bind (fun r => c83_run n r.compounds (nextStream r.tc s s) l)

private theorem update_compounds {cs : ℕ → Compound} {n : ℕ} {s : Stream} {p : Pass} {r : Result}
    (h : updateFluid cs n s p = some r) : sorbAll s p n cs = some r.compounds ∧ r = transport r.compounds n s p := by
  unfold updateFluid at h
  rw [Option.map_eq_some_iff] at h
  obtain ⟨ds, hds, hr⟩ := h
  have : r.compounds = ds := by
    rw [← hr]
    unfold transport
    split_ifs <;> rfl
  rw [this]
  exact ⟨hds, hr.symm⟩

/-- **C83, the capacity.** After any number of passes, whatever the streams and malfunctions, all compounds are between none and
their capacity, and their filled fractions are from 0 to 1 accordingly. -/
theorem c83_capacity (n : ℕ) (l : List (Stream × Pass)) (hd : ∀ q ∈ l, 0 < q.2.dt) :
    ∀ (cs : ℕ → Compound) (s : Stream) (r : (ℕ → Compound) × Stream), (∀ i < n, c83_Sound (cs i)) →
      c83_run n cs s l = some r → ∀ i < n, c83_Sound (r.1 i) ∧ 0 ≤ (r.1 i).fill ∧ (r.1 i).fill ≤ 1 := by
  induction l with
  | nil =>
    intro cs s r h hr i hi
    cases hr
    exact ⟨h i hi, sound_fill (h i hi)⟩
  | cons q l ih =>
    intro cs s r h hr
    obtain ⟨node, p⟩ := q
    unfold c83_run at hr
    rw [Option.bind_eq_some_iff] at hr
    obtain ⟨u, hu, hrest⟩ := hr
    refine ih (fun q hq => hd q (List.mem_cons_of_mem _ hq)) u.compounds _ r ?_ hrest
    intro i hi
    obtain ⟨f, hf⟩ := (all_step _ p n cs u.compounds (update_compounds hu).1).2 i hi
    exact (c83_books _ _ _ p f (h i hi) (hd (node, p) List.mem_cons_self) hf).1

private theorem fluidRate_sum (cs : ℕ → Compound) (n : ℕ) :
    fluidRate cs n = ∑ i ∈ Finset.range n, if (cs i).trace then 0 else (cs i).rate := by
  induction n with
  | zero => rfl
  | succ n ih => rw [Finset.sum_range_succ, ← ih]; rfl

private theorem heatAll_sum (cs : ℕ → Compound) (n : ℕ) : heatAll cs n = ∑ i ∈ Finset.range n, (cs i).heat := by
  induction n with
  | zero => rfl
  | succ n ih => rw [Finset.sum_range_succ, ← ih]; rfl

private theorem fluidMoles_sum (cs : ℕ → Compound) (n : ℕ) :
    fluidMoles cs n = -∑ i ∈ Finset.range n, if (cs i).trace then 0 else (cs i).rate / (cs i).mw := by
  induction n with
  | zero => simp [fluidMoles]
  | succ n ih =>
    rw [Finset.sum_range_succ]
    unfold fluidMoles
    rw [ih]
    split_ifs <;> ring

/-- **C83, what the node gets.** When the rates of the fluids add up to more than 100 DBL_EPSILON, the node at the exit is given
their sum, each compound at its rate, and the source of that port is the sum of the molar rates if that is at least DBL_EPSILON;
the other source is zero.  Else both are zero and the node is given nothing.  The wall gets the heat of all compounds. -/
theorem c83_transport (cs : ℕ → Compound) (n : ℕ) (s : Stream) (p : Pass) (r : Result) (h : updateFluid cs n s p = some r) :
    (100 * dblEps < |∑ i ∈ Finset.range n, if (r.compounds i).trace then 0 else (r.compounds i).rate| →
      ∃ g, r.given = some g ∧ g.port = (if 0 ≤ p.flow then 1 else 0) ∧
        g.rate = -∑ i ∈ Finset.range n, (if (r.compounds i).trace then 0 else (r.compounds i).rate) ∧
        (∀ i < n, (r.compounds i).trace = false → g.rate * g.fraction i = -(r.compounds i).rate) ∧
        (dblEps ≤ |∑ i ∈ Finset.range n, if (r.compounds i).trace then 0 else (r.compounds i).rate / (r.compounds i).mw| →
          r.source g.port =
            -∑ i ∈ Finset.range n, if (r.compounds i).trace then 0 else (r.compounds i).rate / (r.compounds i).mw) ∧
        (∀ k, k ≠ g.port → r.source k = 0)) ∧
    (|∑ i ∈ Finset.range n, if (r.compounds i).trace then 0 else (r.compounds i).rate| ≤ 100 * dblEps →
      r.given = none ∧ ∀ k, r.source k = 0) ∧
    r.wallHeat = p.convection + ∑ i ∈ Finset.range n,
      -(r.compounds i).heatOf * (r.compounds i).rate * 1000000 / (r.compounds i).mw := by
  obtain ⟨hall, hr⟩ := update_compounds h
  have hstep := all_step s p n cs r.compounds hall
  rw [← fluidRate_sum]
  refine ⟨?_, ?_, ?_⟩
  · intro hbig
    have hb : eps100 < |fluidRate r.compounds n| := hbig
    have hlim : innerLimit dblEps (-fluidRate r.compounds n) = -fluidRate r.compounds n := by
      apply innerLimit_of_abs_ge
      rw [abs_neg]
      have := dblEps_pos (K := ℝ)
      linarith
    have hne : -fluidRate r.compounds n ≠ 0 := by
      intro h0
      rw [← abs_neg, h0, abs_zero] at hbig
      have := dblEps_pos (K := ℝ)
      linarith
    rw [hr]
    unfold transport
    rw [if_pos hb]
    refine ⟨_, rfl, rfl, rfl, ?_, ?_, ?_⟩
    · intro i hi ht
      show -fluidRate r.compounds n * sorbFraction r.compounds n i = _
      unfold sorbFraction
      rw [if_pos ⟨hi, ht⟩, hlim, mul_div_cancel₀ _ hne]
    · intro hm
      show (if exitPort p.flow = exitPort p.flow then -fluidRate r.compounds n / sorbWeight r.compounds n else 0) = _
      rw [if_pos rfl]
      have hmol := fluidMoles_sum r.compounds n
      have hmn : fluidMoles r.compounds n ≠ 0 := by
        intro h0
        rw [hmol, neg_eq_zero] at h0
        rw [h0, abs_zero] at hm
        have := dblEps_pos (K := ℝ)
        linarith
      unfold sorbWeight
      rw [hlim, innerLimit_of_abs_ge (by rw [hmol, abs_neg]; exact hm), ← hmol, div_div_cancel₀ hne]
    · intro k hk
      exact if_neg hk
  · intro hsmall
    have hs : ¬ eps100 < |fluidRate r.compounds n| := not_lt.2 hsmall
    rw [hr]
    unfold transport
    rw [if_neg hs]
    exact ⟨rfl, fun _ => rfl⟩
  · have hw : r.wallHeat = p.convection + heatAll r.compounds n := by
      conv_lhs => rw [hr]
      unfold transport
      split_ifs <;> rfl
    rw [hw, heatAll_sum]
    congr 1
    apply Finset.sum_congr rfl
    intro i hi
    obtain ⟨f, hf⟩ := hstep.2 i (Finset.mem_range.1 hi)
    have hf' := sorb_fields hf
    unfold Compound.sorb at hf
    rw [Option.map_eq_some_iff] at hf
    obtain ⟨x, -, hx⟩ := hf
    rw [hf'.2.2.2.2, hf'.2.2.1, ← hx]
    rfl

/-! ## Trace compounds -/

private theorem takeTrace_other (cs : ℕ → Compound) (m : ℕ → ℝ) (j : ℕ) (n : ℕ)
    (h : ∀ i < n, (cs i).trace = true → (cs i).index ≠ j) : takeTrace cs n m j = m j := by
  induction n with
  | zero => rfl
  | succ n ih =>
    unfold takeTrace
    dsimp only
    have hi := ih (fun i hi => h i (by omega))
    split_ifs with ht
    · rw [Function.update_of_ne (Ne.symm (h n (by omega) ht)), hi]
    · exact hi

private theorem takeTrace_self (cs : ℕ → Compound) (m : ℕ → ℝ) (i : ℕ) (n : ℕ) (hi : i < n) (ht : (cs i).trace = true)
    (h : ∀ k < n, (cs k).trace = true → (cs k).index = (cs i).index → k = i) :
    takeTrace cs n m (cs i).index = m (cs i).index - (cs i).rate := by
  induction n with
  | zero => exact absurd hi (Nat.not_lt_zero i)
  | succ n ih =>
    unfold takeTrace
    dsimp only
    by_cases hin : i = n
    · subst hin
      rw [if_pos ht, Function.update_self, takeTrace_other]
      intro k hk hkt hki
      exact absurd (h k (by omega) hkt hki) (by omega)
    · have hrec := ih (by omega) (fun k hk => h k (by omega))
      split_ifs with hn
      · have hne : (cs i).index ≠ (cs n).index := fun he => hin (h n (by omega) hn he.symm).symm
        rw [Function.update_of_ne hne, hrec]
      · exact hrec

/-- The trace compounds among the first `n` are at different indexes. -/
def c83_Distinct (cs : ℕ → Compound) (n : ℕ) : Prop :=
  ∀ i < n, ∀ k < n, (cs i).trace = true → (cs k).trace = true → (cs k).index = (cs i).index → k = i

private theorem distinct_step {cs ds : ℕ → Compound} {s : Stream} {p : Pass} {n : ℕ} (h : sorbAll s p n cs = some ds)
    (hd : c83_Distinct cs n) : c83_Distinct ds n := by
  have hs := (all_step s p n cs ds h).2
  intro i hi k hk h1 h2 h3
  obtain ⟨f, hf⟩ := hs i hi
  obtain ⟨g, hg⟩ := hs k hk
  rw [(sorb_fields hf).1] at h1
  rw [(sorb_fields hg).1] at h2
  rw [(sorb_fields hf).2.1, (sorb_fields hg).2.1] at h3
  exact hd i hi k hk h1 h2 h3

/-- **C83, trace compounds that ride along (failure).** What a trace compound adsorbs is not taken from what the stream brings in: the
stream's mole fractions are copied before each pass, but the masses are not.  The rate is the efficiency of the mass that is left in
the internal fluid from earlier passes, and the fraction that leaves is what remains of that mass.  None of them depends on
the fraction that comes in. -/
theorem c83_trace_pass (cs : ℕ → Compound) (n : ℕ) (s : Stream) (p : Pass) (r : Result) (h : updateFluid cs n s p = some r)
    (hdis : c83_Distinct cs n) (i : ℕ) (hi : i < n) (ht : (cs i).trace = true)
    (hb : 100 * dblEps < |∑ k ∈ Finset.range n, if (r.compounds k).trace then 0 else (r.compounds k).rate|) :
    (0 < s.moles →
      r.tc.frac (cs i).index =
        (if (s.tc.mass (cs i).index - (r.compounds i).rate) / s.moles / s.config.mw (cs i).index < dblEps then 0
          else (s.tc.mass (cs i).index - (r.compounds i).rate) / s.moles / s.config.mw (cs i).index)) ∧
    (r.tc.mass (cs i).index = 0 ∨ r.tc.mass (cs i).index = s.tc.mass (cs i).index - (r.compounds i).rate) := by
  obtain ⟨hall, hr⟩ := update_compounds h
  obtain ⟨f, hf⟩ := (all_step s p n cs r.compounds hall).2 i hi
  have hfield := sorb_fields hf
  have hdd := distinct_step hall hdis
  have hti : (r.compounds i).trace = true := hfield.1.trans ht
  rw [← fluidRate_sum] at hb
  have hb' : eps100 < |fluidRate r.compounds n| := hb
  have hself := takeTrace_self r.compounds s.tc.mass i n hi hti
    (fun k hk h1 h2 => hdd i hi k hk hti h1 h2)
  rw [hfield.2.1] at hself
  have htc : r.tc = Tc.updateMoleFractions s.config s.moles { s.tc with mass := takeTrace r.compounds n s.tc.mass } := by
    conv_lhs => rw [hr]
    unfold transport
    rw [if_pos hb']
  rw [htc]
  unfold Tc.updateMoleFractions
  dsimp only
  rw [hself]
  constructor
  · intro hm
    rw [if_pos hm, hself]
  · by_cases hx : (if 0 < s.moles then fun i => takeTrace r.compounds n s.tc.mass i / s.moles / s.config.mw i
        else s.tc.frac) (cs i).index < dblEps
    · exact Or.inl (if_pos hx)
    · exact Or.inr (if_neg hx)

/-- **C83, trace compounds alone (failure).** When the rates of the fluids add up to no more than 100 DBL_EPSILON, in particular when
there are only trace compounds to adsorb, these are stored in the bed and the stream keeps them all. -/
theorem c83_trace_only (cs : ℕ → Compound) (n : ℕ) (s : Stream) (p : Pass) (r : Result) (h : updateFluid cs n s p = some r)
    (hd : 0 < p.dt) (i : ℕ) (hi : i < n) (hc : c83_Sound (cs i)) :
    (|∑ k ∈ Finset.range n, if (r.compounds k).trace then 0 else (r.compounds k).rate| ≤ 100 * dblEps →
      r.tc = s.tc ∧ |(r.compounds i).adsorbed - (cs i).adsorbed - (r.compounds i).rate * p.dt| < dblEps) ∧
    ((∀ k < n, (cs k).trace = true) → r.tc = s.tc ∧ r.given = none) := by
  obtain ⟨hall, hr⟩ := update_compounds h
  have hstep := (all_step s p n cs r.compounds hall).2
  have hkeep : |fluidRate r.compounds n| ≤ 100 * dblEps → r.tc = s.tc ∧ r.given = none := by
    intro hsmall
    have hs : ¬ eps100 < |fluidRate r.compounds n| := not_lt.2 hsmall
    rw [hr]
    unfold transport
    rw [if_neg hs]
    exact ⟨rfl, rfl⟩
  rw [← fluidRate_sum]
  constructor
  · intro hsmall
    obtain ⟨f, hf⟩ := hstep i hi
    exact ⟨(hkeep hsmall).1, (c83_books _ _ s p f hc hd hf).2.1⟩
  · intro hall'
    apply hkeep
    have : fluidRate r.compounds n = 0 := by
      rw [fluidRate_sum]
      apply Finset.sum_eq_zero
      intro k hk
      obtain ⟨f, hf⟩ := hstep k (Finset.mem_range.1 hk)
      rw [if_pos ((sorb_fields hf).1.trans (hall' k (Finset.mem_range.1 hk)))]
    rw [this, abs_zero]
    have := dblEps_pos (K := ℝ)
    positivity

/-- In every pass of the run the rates of the fluids add up to more than 100 DBL_EPSILON, and the flow is more than that. -/
def c83_removes (n : ℕ) : (ℕ → Compound) → Stream → List (Stream × Pass) → Prop
  | _, _, [] => True
  | cs, s, (node, p) :: l =>
    100 * dblEps < |p.flow| ∧
    ∀ r, updateFluid cs n (nextStream s.tc node s) p = some r →
      100 * dblEps < |∑ k ∈ Finset.range n, if (r.compounds k).trace then 0 else (r.compounds k).rate| ∧
      c83_removes n r.compounds (nextStream r.tc s s) l

/-- **C83, trace compounds for ever (failure).** Over any number of passes of one step length in which fluid is taken and flow goes
through, whatever the streams bring in, the mass of a trace compound in the bed grows by at most the step times the mass that was in the
internal fluid at the start, up to DBL_EPSILON for each pass: all that comes in later with the stream is lost. -/
theorem c83_trace_stale (n : ℕ) (dt : ℝ) (hdt : 0 < dt) (i : ℕ) (hi : i < n) (l : List (Stream × Pass)) :
    ∀ (cs : ℕ → Compound) (s : Stream) (r : (ℕ → Compound) × Stream), (∀ q ∈ l, q.2.dt = dt) → c83_Distinct cs n →
      (∀ k < n, c83_Sound (cs k)) → (cs i).trace = true → (∀ j, (cs i).dependent = some j → j < n) →
      (∀ v, (cs i).malf = some v → 0 ≤ v ∧ v ≤ 1) → 0 ≤ (cs i).desorbFactor →
      0 ≤ s.tc.mass (cs i).index → c83_removes n cs s l → c83_run n cs s l = some r →
      (r.1 i).adsorbed + r.2.tc.mass (cs i).index * dt ≤
        (cs i).adsorbed + s.tc.mass (cs i).index * dt + l.length * dblEps ∧
      (r.1 i).adsorbed ≤ (cs i).adsorbed + s.tc.mass (cs i).index * dt + l.length * dblEps := by
  induction l with
  | nil =>
    intro cs s r _ _ _ _ _ _ _ hm _ hr
    cases hr
    have : 0 ≤ s.tc.mass (cs i).index * dt := mul_nonneg hm hdt.le
    simp only [List.length_nil, Nat.cast_zero, zero_mul, add_zero, le_refl, true_and]
    linarith
  | cons q l ih =>
    intro cs s r hds hdis hsound htr hdep hmalf hk hm hrem hr
    obtain ⟨node, p⟩ := q
    have hp : p.dt = dt := hds (node, p) List.mem_cons_self
    unfold c83_run at hr
    rw [Option.bind_eq_some_iff] at hr
    obtain ⟨u, hu, hrest⟩ := hr
    obtain ⟨hflow, hrem'⟩ := hrem
    obtain ⟨hbig, hnext⟩ := hrem' u hu
    obtain ⟨hall, -⟩ := update_compounds hu
    have hst := (all_step _ p n cs u.compounds hall).2
    obtain ⟨f, hf⟩ := hst i hi
    have hfield := sorb_fields hf
    have hbooks := c83_books _ _ _ p f (hsound i hi) (by rw [hp]; exact hdt) hf
    have htp := (c83_trace_pass cs n _ p u hu hdis i hi htr hbig).2
    have hmass : (nextStream s.tc node s).tc.mass = s.tc.mass := rfl
    rw [hmass] at htp
    have hthru : (cs i).through (nextStream s.tc node s) p = some (s.tc.mass (cs i).index) := by
      unfold Compound.through
      rw [if_pos ⟨htr, hflow⟩, hmass]
    have hkept : (u.compounds i).dependent = (cs i).dependent ∧ (u.compounds i).malf = (cs i).malf ∧
        (u.compounds i).desorbFactor = (cs i).desorbFactor := by
      have hf2 := hf
      unfold Compound.sorb at hf2
      rw [Option.map_eq_some_iff] at hf2
      obtain ⟨x, -, hx⟩ := hf2
      rw [← hx]
      exact ⟨rfl, rfl, rfl⟩
    have hrate : (u.compounds i).rate ≤ s.tc.mass (cs i).index := by
      -- every dependence on another compound only scales the rate by its filled fraction
      have hfill : ∃ g : Option ℝ, (∀ x, g = some x → 0 ≤ x ∧ x ≤ 1) ∧
          (cs i).sorb (nextStream s.tc node s) p g = some (u.compounds i) := by
        clear hbooks htp hthru hkept hnext hrest hbig hrem'
        exact sorbAll_fill _ p n cs u.compounds (by rw [hp]; exact hdt) hsound hall i hi hdep
      obtain ⟨g, hg, hsg⟩ := hfill
      have hr3 := c83_rate _ _ _ p g (hsound i hi) (by rw [hp]; exact hdt) hg hmalf hk hsg
      by_cases h1 : (cs i).partialPressure (nextStream s.tc node s) p < (cs i).desorbPressure
      · exact le_trans (hr3.2.1 h1).1 hm
      · by_cases h2 : (cs i).efficiency p.temp < 0
        · rw [hr3.2.2 (not_lt.1 h1) h2]
          exact hm
        · exact (hr3.1 (not_lt.1 h1) (not_lt.1 h2) _ hthru hm).2.2.1
    have hpass : 0 ≤ u.tc.mass (cs i).index ∧ (u.compounds i).adsorbed + u.tc.mass (cs i).index * dt ≤
        (cs i).adsorbed + s.tc.mass (cs i).index * dt + dblEps := by
      have hb := (abs_lt.1 hbooks.2.1).2
      rw [hp] at hb
      rcases htp with h0 | h0
      · rw [h0]
        refine ⟨le_rfl, ?_⟩
        nlinarith
      · rw [h0]
        refine ⟨by linarith, ?_⟩
        nlinarith
    have hi' := ih u.compounds (nextStream u.tc s s) r (fun q hq => hds q (List.mem_cons_of_mem _ hq))
      (distinct_step hall hdis)
      (fun k hk' => by
        obtain ⟨g, hg⟩ := hst k hk'
        exact (c83_books _ _ _ p g (hsound k hk') (by rw [hp]; exact hdt) hg).1)
      (hfield.1.trans htr) (by rw [hkept.1]; exact hdep) (by rw [hkept.2.1]; exact hmalf) (by rw [hkept.2.2]; exact hk)
      (by rw [hfield.2.1]; exact hpass.1) hnext hrest
    rw [hfield.2.1] at hi'
    have hm2 : (nextStream u.tc s s).tc.mass = u.tc.mass := rfl
    rw [hm2] at hi'
    have hlen : (((node, p) :: l).length : ℝ) = (l.length : ℝ) + 1 := by
      rw [List.length_cons]
      push_cast
      ring
    rw [hlen, add_mul, one_mul]
    exact ⟨by linarith [hi'.1, hpass.2], by linarith [hi'.2, hpass.2]⟩

/-- **C83, trace compounds without flow (failure).** When the flow is at most 100 DBL_EPSILON a trace compound looks up the mass fraction
of a fluid with its own index: beyond the number of fluids this throws in the run, whatever the other compounds. -/
theorem c83_throw (cs : ℕ → Compound) (n : ℕ) (s : Stream) (p : Pass) (i : ℕ) (hi : i < n)
    (hf : |p.flow| ≤ 100 * dblEps) (hp : (cs i).desorbPressure ≤ (cs i).partialPressure s p)
    (he : 0 ≤ (cs i).efficiency p.temp) :
    (s.n ≤ (cs i).index → updateFluid cs n s p = none) ∧
    ((cs i).index < s.n → (cs i).through s p = some (s.mass (cs i).index * |p.flow|)) := by
  have hthru : (cs i).through s p = if (cs i).index < s.n then some (s.mass (cs i).index * |p.flow|) else none := by
    unfold Compound.through
    rw [if_neg]
    rintro ⟨-, h⟩
    exact absurd h (not_lt.2 hf)
  constructor
  · intro hn
    by_contra hne
    obtain ⟨r, hr⟩ := Option.ne_none_iff_exists'.1 hne
    obtain ⟨f, hs⟩ := (all_step s p n cs r.compounds (update_compounds hr).1).2 i hi
    rw [if_neg (not_lt.2 hn)] at hthru
    unfold Compound.sorb Compound.sorbRate Compound.rawRate at hs
    rw [if_neg (by rintro (h | h) <;> linarith), hthru] at hs
    exact absurd hs (by simp)
  · intro hn
    rw [hthru, if_pos hn]

/-- **C83, mass lost by rounding (failure).** An empty compound that adsorbs less than DBL_EPSILON kilograms in a pass stays empty, although
its rate is taken from the stream. -/
theorem c83_lost (c d : Compound) (s : Stream) (p : Pass) (f : Option ℝ) (h0 : c.adsorbed = 0)
    (hs : c.sorb s p f = some d) (hr : d.rate * p.dt < dblEps) : d.adsorbed = 0 := by
  unfold Compound.sorb at hs
  rw [Option.map_eq_some_iff] at hs
  obtain ⟨r, -, hx⟩ := hs
  subst hx
  show snap c.maxMass (c.adsorbed + r * p.dt) = 0
  unfold snap
  rw [if_pos]
  rw [h0, zero_add]
  exact hr

/-! ## Examples -/

/-- A compound at half efficiency, with two kilograms of ten stored. -/
private noncomputable def exHalf (trace : Bool) (index : ℕ) : Compound where
  coeff0 := 1 / 2
  coeff1 := 0
  maxMass := 10
  desorbPressure := 0
  desorbFactor := 1
  heatOf := -1
  taper := false
  breakthrough := 1
  dependent := none
  trace := trace
  index := index
  mw := 4
  malf := none
  adsorbed := 2
  fill := 1 / 5
  rate := 0
  heat := 0

/-- The same below its desorption pressure: it desorbs a kilogram per second. -/
private noncomputable def exOff (index : ℕ) : Compound :=
  { exHalf false index with
    coeff0 := 1
    desorbPressure := 51 }

/-- A stream of two fluids at 100 kPa with a trace compound. -/
private noncomputable def exStream (tcMass : ℝ) : Stream where
  n := 2
  mole := fun _ => 1 / 2
  mass := fun _ => 1 / 2
  config := ⟨3, fun _ => 2⟩
  tc := ⟨fun _ => tcMass, fun _ => 1 / 100⟩
  moles := 1

/-- Four kilograms per second for a second. -/
private noncomputable def exGo : Pass where
  dt := 1
  temp := 300
  pressure := 100
  flow := 4
  convection := 0

private theorem exHalf_sound (t : Bool) (i : ℕ) : c83_Sound (exHalf t i) := by
  refine ⟨?_, ?_, ?_, ?_⟩
  · exact le_trans dblEps_lt_one.le (by norm_num [exHalf])
  · norm_num [exHalf]
  · norm_num [exHalf]
  · norm_num [exHalf]

private theorem eps_small : (100 * dblEps : ℝ) < 1 / 10 := by
  unfold dblEps
  norm_num

private theorem exHalf_eff (t : Bool) (i : ℕ) (x : ℝ) : (exHalf t i).efficiency x = 1 / 2 := by
  simp only [Compound.efficiency, exHalf, Interp.limitRange, zero_mul, add_zero]
  rw [min_eq_left (by norm_num), max_eq_left (by norm_num)]

/-- A fluid: half of the two kilograms per second that come in is adsorbed. -/
private theorem exHalf_sorb (i : ℕ) (hi : i < 2) (m : ℝ) (f : Option ℝ) (hf : f = none) :
    (exHalf false i).sorb (exStream m) exGo f = some ((exHalf false i).store 1 1) := by
  subst hf
  have hthru : (exHalf false i).through (exStream m) exGo = some 2 := by
    unfold Compound.through
    rw [if_neg (by simp [exHalf]), if_pos (by simpa [exHalf, exStream] using hi)]
    norm_num [exStream, exGo]
  have hpp : (exHalf false i).partialPressure (exStream m) exGo = 50 := by
    norm_num [Compound.partialPressure, exHalf, exStream, exGo]
  unfold Compound.sorb Compound.sorbRate Compound.rawRate
  rw [if_neg (by rw [hpp, exHalf_eff]; norm_num [exHalf]), hthru, exHalf_eff]
  have h : (exHalf false i).limitRate 1 ((exHalf false i).malfunction (dependOn none ((exHalf false i).taperOff (1 / 2 * 2)))) = 1 := by
    have e : (exHalf false i).malfunction (dependOn none ((exHalf false i).taperOff (1 / 2 * 2))) = 1 := by
      norm_num [Compound.malfunction, dependOn, Compound.taperOff, exHalf]
    rw [e]
    norm_num [Compound.limitRate, exHalf]
  show some ((exHalf false i).store 1 ((exHalf false i).limitRate 1 _)) = _
  rw [h]

/-- The hypotheses of `c83_books` and `c83_rate` are met, with a rate that is not zero. -/
example : ∃ d, (exHalf false 0).sorb (exStream 1) exGo none = some d ∧ d.rate = 1 ∧ d.adsorbed = 3 := by
  refine ⟨_, exHalf_sorb 0 (by norm_num) 1 none rfl, rfl, ?_⟩
  show snap 10 (2 + 1 * 1) = 3
  have := eps_small
  have h0 := dblEps_pos (K := ℝ)
  unfold snap
  rw [if_neg (by linarith), if_neg (by linarith)]
  norm_num

/-- A trace compound adsorbs half of the mass that is left in the internal fluid, here `m`, whatever its fraction. -/
private theorem exTrace_sorb (i : ℕ) (m : ℝ) (hm : 0 < m) (h8 : m ≤ 16) :
    (exHalf true i).sorb (exStream m) exGo none = some ((exHalf true i).store 1 (m / 2)) := by
  have hthru : (exHalf true i).through (exStream m) exGo = some m := by
    unfold Compound.through
    rw [if_pos]
    · rfl
    · refine ⟨rfl, ?_⟩
      have := eps_small
      show 100 * dblEps < |(4 : ℝ)|
      norm_num at this ⊢
      linarith
  have hpp : (exHalf true i).partialPressure (exStream m) exGo = 1 := by
    norm_num [Compound.partialPressure, exHalf, exStream, exGo]
  unfold Compound.sorb Compound.sorbRate Compound.rawRate
  rw [if_neg (by rw [hpp, exHalf_eff]; norm_num [exHalf]), hthru, exHalf_eff]
  have e : (exHalf true i).malfunction (dependOn none ((exHalf true i).taperOff (1 / 2 * m))) = m / 2 := by
    simp [Compound.malfunction, dependOn, Compound.taperOff, exHalf]
    ring
  have h : (exHalf true i).limitRate 1 (m / 2) = m / 2 := by
    unfold Compound.limitRate
    rw [if_pos (by linarith), min_eq_left]
    show m / 2 ≤ (10 - 2) / 1
    linarith
  show some ((exHalf true i).store 1 ((exHalf true i).limitRate 1 ((exHalf true i).malfunction (dependOn none
    ((exHalf true i).taperOff (1 / 2 * m)))))) = _
  rw [e, h]

/-- Trace compounds alone: the bed gains half a kilogram and the stream keeps it. -/
example : ∃ r, updateFluid (fun _ => exHalf true 0) 1 (exStream 1) exGo = some r ∧ (r.compounds 0).rate = 1 / 2 ∧
    r.tc = (exStream 1).tc ∧ r.given = none := by
  have hall : sorbAll (exStream 1) exGo 1 (fun _ => exHalf true 0) =
      some (Function.update (fun _ => exHalf true 0) 0 ((exHalf true 0).store 1 (1 / 2))) := by
    show (some (fun _ => exHalf true 0)).bind _ = _
    rw [Option.bind_some]
    show ((exHalf true 0).sorb (exStream 1) exGo none).map _ = _
    rw [exTrace_sorb 0 1 (by norm_num) (by norm_num)]
    rfl
  have hu : updateFluid (fun _ => exHalf true 0) 1 (exStream 1) exGo =
      some (transport (Function.update (fun _ => exHalf true 0) 0 ((exHalf true 0).store 1 (1 / 2))) 1 (exStream 1) exGo) := by
    unfold updateFluid
    rw [hall]
    rfl
  refine ⟨_, hu, ?_, (c83_trace_only _ 1 _ exGo _ hu (by norm_num [exGo]) 0 (by norm_num)
    (exHalf_sound true 0)).2 (fun k _ => rfl)⟩
  rw [Option.some.inj (((update_compounds hu).1).symm.trans hall), Function.update_self]
  rfl

/-- One fluid adsorbs a kilogram per second, the other desorbs as much: both are booked in the bed, and the node is given
nothing. -/
example : ∃ r, updateFluid (fun i => if i = 0 then exHalf false 0 else exOff 1) 2 (exStream 1) exGo = some r ∧
    (r.compounds 0).rate = 1 ∧ (r.compounds 1).rate = -1 ∧ r.given = none := by
  have h1 : (exOff 1).sorb (exStream 1) exGo none = some ((exOff 1).store 1 (-1)) := by
    have heff : (exOff 1).efficiency 300 = 1 := by
      simp only [Compound.efficiency, exOff, exHalf, Interp.limitRange, zero_mul, add_zero]
      rw [min_self, max_eq_left (by norm_num)]
    have hpp : (exOff 1).partialPressure (exStream 1) exGo = 50 := by
      norm_num [Compound.partialPressure, exOff, exHalf, exStream, exGo]
    have hr : min 0 ((50 : ℝ) - (exOff 1).desorbPressure) * (exOff 1).desorbFactor * |(1 : ℝ)| = -1 := by
      norm_num [exOff, exHalf]
    unfold Compound.sorb Compound.sorbRate Compound.rawRate
    rw [if_pos (Or.inl (by rw [hpp]; norm_num [exOff])), hpp]
    show some ((exOff 1).store 1 ((exOff 1).limitRate 1 ((exOff 1).malfunction (dependOn none ((exOff 1).taperOff
      (min 0 (50 - (exOff 1).desorbPressure) * (exOff 1).desorbFactor * |(exOff 1).efficiency 300|)))))) = _
    rw [heff, hr]
    have e : (exOff 1).malfunction (dependOn none ((exOff 1).taperOff (-1))) = -1 := by
      norm_num [Compound.malfunction, dependOn, Compound.taperOff, exOff, exHalf]
    have l : (exOff 1).limitRate 1 (-1) = -1 := by
      norm_num [Compound.limitRate, exOff, exHalf]
    rw [e, l]
  let cs : ℕ → Compound := fun i => if i = 0 then exHalf false 0 else exOff 1
  let ds : ℕ → Compound := Function.update (Function.update cs 0 ((exHalf false 0).store 1 1)) 1 ((exOff 1).store 1 (-1))
  have hall : sorbAll (exStream 1) exGo 2 cs = some ds := by
    have ha : sorbAll (exStream 1) exGo 1 cs = some (Function.update cs 0 ((exHalf false 0).store 1 1)) := by
      show (some cs).bind _ = _
      rw [Option.bind_some]
      show ((exHalf false 0).sorb (exStream 1) exGo none).map _ = _
      rw [exHalf_sorb 0 (by norm_num) 1 none rfl]
      rfl
    show (sorbAll (exStream 1) exGo 1 cs).bind _ = _
    rw [ha, Option.bind_some]
    show ((exOff 1).sorb (exStream 1) exGo none).map _ = _
    rw [h1]
    rfl
  have hu : updateFluid cs 2 (exStream 1) exGo = some (transport ds 2 (exStream 1) exGo) := by
    unfold updateFluid
    rw [hall]
    rfl
  have hcomp : (transport ds 2 (exStream 1) exGo).compounds = ds :=
    Option.some.inj (((update_compounds hu).1).symm.trans hall)
  refine ⟨_, hu, by rw [hcomp]; rfl, by rw [hcomp]; rfl, ?_⟩
  refine ((c83_transport cs 2 _ exGo _ hu).2.1 ?_).1
  rw [hcomp]
  have : ∑ i ∈ Finset.range 2, (if (ds i).trace then 0 else (ds i).rate) = 0 := by
    rw [Finset.sum_range_succ, Finset.sum_range_succ, Finset.sum_range_zero]
    show (0 : ℝ) + 1 + -1 = 0
    norm_num
  rw [this, abs_zero]
  have := dblEps_pos (K := ℝ)
  positivity

/-- A fluid and a trace compound: `c83_trace_stale` applies, and bounds the trace compound by what is in the internal fluid. -/
example : ∃ r, c83_run 2 (fun i => if i = 0 then exHalf false 0 else exHalf true 2) (exStream 1) [(exStream 7, exGo)] = some r ∧
    (r.1 1).adsorbed ≤ 2 + 1 * 1 + 1 * dblEps := by
  let cs : ℕ → Compound := fun i => if i = 0 then exHalf false 0 else exHalf true 2
  let ds : ℕ → Compound := Function.update (Function.update cs 0 ((exHalf false 0).store 1 1)) 1 ((exHalf true 2).store 1 (1 / 2))
  have hst : nextStream (exStream 1).tc (exStream 7) (exStream 1) = exStream 1 := rfl
  have hall : sorbAll (exStream 1) exGo 2 cs = some ds := by
    have ha : sorbAll (exStream 1) exGo 1 cs = some (Function.update cs 0 ((exHalf false 0).store 1 1)) := by
      show (some cs).bind _ = _
      rw [Option.bind_some]
      show ((exHalf false 0).sorb (exStream 1) exGo none).map _ = _
      rw [exHalf_sorb 0 (by norm_num) 1 none rfl]
      rfl
    show (sorbAll (exStream 1) exGo 1 cs).bind _ = _
    rw [ha, Option.bind_some]
    show ((exHalf true 2).sorb (exStream 1) exGo none).map _ = _
    rw [exTrace_sorb 2 1 (by norm_num) (by norm_num)]
    rfl
  have hu : updateFluid cs 2 (exStream 1) exGo = some (transport ds 2 (exStream 1) exGo) := by
    unfold updateFluid
    rw [hall]
    rfl
  have hcomp : (transport ds 2 (exStream 1) exGo).compounds = ds :=
    Option.some.inj (((update_compounds hu).1).symm.trans hall)
  have hrun : c83_run 2 cs (exStream 1) [(exStream 7, exGo)] =
      some (ds, nextStream (transport ds 2 (exStream 1) exGo).tc (exStream 1) (exStream 1)) := by
    unfold c83_run
    rw [hst, hu, Option.bind_some]
    unfold c83_run
    rw [hcomp]
  have hc : ∀ k, cs k = exHalf false 0 ∨ cs k = exHalf true 2 := by
    intro k
    by_cases h : k = 0
    · exact Or.inl (if_pos h)
    · exact Or.inr (if_neg h)
  have hdis : c83_Distinct cs 2 := by
    intro i hi k hk h1 h2 _
    have hx : ∀ j, j < 2 → (cs j).trace = true → j = 1 := by
      intro j hj ht
      by_contra hne
      have : j = 0 := by omega
      subst this
      exact absurd ht (by simp [cs, exHalf])
    rw [hx i hi h1, hx k hk h2]
  have hrem : c83_removes 2 cs (exStream 1) [(exStream 7, exGo)] := by
    have := eps_small
    refine ⟨?_, ?_⟩
    · show 100 * dblEps < |(4 : ℝ)|
      rw [abs_of_pos (by norm_num)]
      linarith
    · intro r hr
      rw [hst, hu] at hr
      have hr' := Option.some.inj hr
      subst hr'
      rw [hcomp]
      have hs : ∑ i ∈ Finset.range 2, (if (ds i).trace then 0 else (ds i).rate) = 1 := by
        rw [Finset.sum_range_succ, Finset.sum_range_succ, Finset.sum_range_zero]
        show (0 : ℝ) + 1 + 0 = 1
        norm_num
      rw [hs, abs_one]
      exact ⟨by linarith, trivial⟩
  have hstale := (c83_trace_stale 2 1 one_pos 1 (by norm_num) [(exStream 7, exGo)] cs (exStream 1) _
    (by intro q hq; rw [List.mem_singleton.1 hq]; rfl) hdis
    (by intro k _; rcases hc k with h | h <;> rw [h] <;> exact exHalf_sound _ _)
    rfl (by intro j hj; exact absurd hj (by simp [cs, exHalf])) (by intro v hv; exact absurd hv (by simp [cs, exHalf]))
    (by simp [cs, exHalf]) (by simp [exStream]) hrem hrun).2
  refine ⟨_, hrun, le_trans hstale (le_of_eq ?_)⟩
  show (2 : ℝ) + 1 * 1 + ((1 : ℕ) : ℝ) * dblEps = _
  norm_num

/-- A bulk compound is desorbed when the pressure times its mole fraction is below the desorption pressure, at the shortfall times
factor and efficiency; a trace compound when the pressure times its trace mole fraction is. -/
theorem c83_desorbs (c : Compound) (s : Stream) (p : Pass) :
    (c.trace = false → p.pressure * s.mole c.index < c.desorbPressure →
      c.rawRate s p = some ((p.pressure * s.mole c.index - c.desorbPressure) * c.desorbFactor * |c.efficiency p.temp|)) ∧
      (c.trace = true → p.pressure * s.tc.frac c.index < c.desorbPressure →
        c.rawRate s p = some ((p.pressure * s.tc.frac c.index - c.desorbPressure) * c.desorbFactor * |c.efficiency p.temp|)) := by
  constructor
  · intro ht h
    have hp : c.partialPressure s p = p.pressure * s.mole c.index := by
      unfold Compound.partialPressure; rw [ht]; rfl
    unfold Compound.rawRate
    rw [hp, if_pos (Or.inl h), min_eq_right (by linarith)]
  · intro ht h
    have hp : c.partialPressure s p = p.pressure * s.tc.frac c.index := by
      unfold Compound.partialPressure; rw [if_pos ht]
    unfold Compound.rawRate
    rw [hp, if_pos (Or.inl h), min_eq_right (by linarith)]

end Gunns.Props
