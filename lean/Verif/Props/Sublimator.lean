import Verif.Fluid.Sublimator
import Mathlib.Tactic.Linarith
import Mathlib.Tactic.FieldSimp
import Mathlib.Tactic.Ring
import Mathlib.Tactic.NormNum
import Mathlib.Tactic.Positivity

/-!
# C89: a sublimator

Ice and thermal conductivity stay within their limits, the vent gets what the heat sublimates, and the feed is never pushed back.  The
water is not conserved.
-/

namespace Gunns.Props

open Gunns Gunns.Sublimate
open Gunns.Interp (limitRange)

set_option linter.unusedSectionVars false

variable {K : Type*} [Field K] [LinearOrder K] [IsStrictOrderedRing K]

/-- The values a pass can have: blockage and bias as they are documented, positive pressures, weights and density. -/
structure C89Pass (q : Pass K) : Prop where
  dt : 0 < q.dt
  p0 : 0 < q.p0
  density : 0 ≤ q.density
  weight : 0 < q.weight
  vent : 0 < q.ventWeight
  block : ∀ b, q.block = some b → 0 ≤ b ∧ b ≤ 1

private theorem rh_range (q : Pass K) : 0 ≤ rh q ∧ rh q ≤ 1 := by
  unfold rh limitRange
  exact ⟨le_max_right _ _, max_le (min_le_right _ _) zero_le_one⟩

private theorem open_range (q : Pass K) (hq : ∀ b, q.block = some b → 0 ≤ b ∧ b ≤ 1) : 0 ≤ openPart q ∧ openPart q ≤ 1 := by
  unfold openPart
  cases h : q.block with
  | none => exact ⟨zero_le_one, le_refl _⟩
  | some b =>
    have := hq b h
    constructor <;> simp only <;> linarith

private theorem sub_nonneg' (c : Config K) (q : Pass K) (s : State K) : 0 ≤ sublimation c q s := by
  unfold sublimation
  split
  · exact le_max_left _ _
  · exact le_refl _

private theorem ice_range (sq : K → K) (c : Config K) (hc : c.Valid) (q : Pass K) (hq : ∀ b, q.block = some b → 0 ≤ b ∧ b ≤ 1)
    (s : State K) : 0 ≤ nextIce sq c q s ∧ nextIce sq c q s ≤ maxIce c q ∧ maxIce c q ≤ c.maxIce := by
  obtain ⟨h0, h1⟩ := open_range q hq
  have hm := hc.2.2.2.1
  have hmax : 0 ≤ maxIce c q := mul_nonneg hm.le h0
  unfold nextIce limitRange
  refine ⟨le_max_right _ _, max_le (min_le_right _ _) hmax, ?_⟩
  unfold maxIce
  nlinarith

/-- Ice and thermal conductivity within their limits. -/
def c89Sound (c : Config K) (s : State K) : Prop := 0 ≤ s.ice ∧ s.ice ≤ c.maxIce ∧ 0 ≤ s.cond ∧ s.cond ≤ c.maxCond

/-- **Within the limits, for ever**: whatever heat, pressures, humidity and malfunctions the passes have, of whatever length. -/
theorem c89_limits (sq : K → K) (c : Config K) (hc : c.Valid) (qs : List (Pass K))
    (hq : ∀ q ∈ qs, ∀ b, q.block = some b → 0 ≤ b ∧ b ≤ 1) (s : State K) (hs : c89Sound c s) : c89Sound c (run sq c qs s) := by
  unfold run
  induction qs generalizing s with
  | nil => exact hs
  | cons q t ih =>
    refine ih (fun p hp => hq p (List.mem_cons_of_mem _ hp)) _ ?_
    obtain ⟨i0, i1, i2⟩ := ice_range sq c hc q (hq q List.mem_cons_self) s
    obtain ⟨-, -, h3, h4⟩ := hs
    obtain ⟨r0, r1⟩ := rh_range q
    have hm := hc.2.2.2.1
    have hk := hc.2.2.2.2.1
    obtain ⟨g0, g1⟩ := hc.2.2.2.2.2.2.2
    have hx0 : 0 ≤ c.maxCond * (1 - rh q) * nextIce sq c q s / c.maxIce := by
      apply div_nonneg _ hm.le
      exact mul_nonneg (mul_nonneg hk.le (by linarith)) i0
    have hx1 : c.maxCond * (1 - rh q) * nextIce sq c q s / c.maxIce ≤ c.maxCond := by
      rw [div_le_iff₀ hm]
      have h1 : c.maxCond * (1 - rh q) ≤ c.maxCond := by nlinarith
      have h2 : c.maxCond * (1 - rh q) * nextIce sq c q s ≤ c.maxCond * nextIce sq c q s := mul_le_mul_of_nonneg_right h1 i0
      have h5 : c.maxCond * nextIce sq c q s ≤ c.maxCond * c.maxIce := mul_le_mul_of_nonneg_left (by linarith) hk.le
      linarith
    have hd := dblEps_pos (K := K)
    refine ⟨i0, by unfold step; simp only; linarith, ?_, ?_⟩
    · unfold step; simp only
      split
      · exact le_refl _
      · linarith
    · unfold step; simp only
      split
      · exact hk.le
      · unfold filtered; nlinarith

/-- **The vent gets what the heat sublimates**: with ice in the plate and an unsaturated vent the heat taken up by the vapour is the heat of
the thermal network; without ice, with a saturated vent or without heat there is no vapour; the vent node gets the vapour unless it is
below the least flow. -/
theorem c89_vent (c : Config K) (hc : c.Valid) (q : Pass K) (hq : C89Pass q) (s : State K) :
    (rh q < 1 → 0 < s.ice → sublimation c q s * ((c.vapor + c.fusion) * 1000) = max 0 (-q.heat)) ∧
      (s.ice ≤ 0 ∨ 1 ≤ q.humidity ∨ 0 ≤ q.heat → sublimation c q s = 0 ∧ vented c q s = 0) ∧
      vented c q s = (if 100 * dblEps < sublimation c q s then sublimation c q s else 0) := by
  have hf := hc.1
  have hv := hc.2.1
  have hs : 0 < c.vapor + c.fusion := by linarith
  have hvent : vented c q s = (if 100 * dblEps < sublimation c q s then sublimation c q s else 0) := by
    unfold vented ventSource
    rw [div_mul_cancel₀ _ hq.vent.ne']
  refine ⟨?_, ?_, hvent⟩
  · intro h1 h2
    unfold sublimation
    rw [if_pos ⟨h1, h2⟩, max_mul_of_nonneg _ _ (by positivity), zero_mul]
    congr 1
    field_simp
  · intro h
    have h0 : sublimation c q s = 0 := by
      unfold sublimation
      by_cases hh : rh q < 1 ∧ 0 < s.ice
      · rw [if_pos hh]
        rcases h with h | h | h
        · linarith [hh.2]
        · exfalso
          have : rh q = 1 := by
            unfold rh limitRange
            rw [min_eq_right h, max_eq_left zero_le_one]
          linarith [hh.1]
        · apply max_eq_left
          apply mul_nonpos_of_nonpos_of_nonneg _ (by norm_num)
          apply div_nonpos_of_nonpos_of_nonneg _ hs.le
          linarith
      · rw [if_neg hh]
    refine ⟨h0, ?_⟩
    rw [hvent, h0]
    have hd := dblEps_pos (K := K)
    rw [if_neg (by linarith)]

private theorem demand_nonneg (c : Config K) (q : Pass K) (hq : C89Pass q) (s : State K) : 0 ≤ demand c q s := by
  have h0 := sub_nonneg' c q s
  unfold demand
  apply div_nonneg _ hq.weight.le
  apply div_nonneg _ hq.p0.le
  unfold feedBias
  cases q.bias with
  | none => simpa using h0
  | some b =>
    simp only
    split
    · have := le_max_right b (-sublimation c q s); linarith
    · linarith

/-- **No back flow**: whatever the bias, the conductance to the feed is at least the least one, and what is taken from the feed is not
negative; it is nothing unless the feed's pressure after the solution is above the vent's before it.  Without enough feed pressure only
the least conductance is left. -/
theorem c89_feed (sq : K → K) (hsq : ∀ x, 0 ≤ sq x) (c : Config K) (hc : c.Valid) (q : Pass K) (hq : C89Pass q) (s : State K)
    (hs : c89Sound c s) :
    1 / 10 ^ 12 ≤ conductance sq c q s ∧ 0 ≤ fed sq c q s ∧ (0 < q.outWeight → q.v0 ≤ q.p1 → fed sq c q s = 0) ∧
      (q.p0 - q.p1 ≤ 1 / 10 → conductance sq c q s = 1 / 10 ^ 12) := by
  have hd := dblEps_pos (K := K)
  have hdem := demand_nonneg c q hq s
  have hG : 1 / 10 ^ 12 ≤ conductance sq c q s := by
    unfold conductance
    by_cases hb : bare c q s = true
    · rw [if_pos hb]
      have hth : 0 ≤ through sq c q s := by
        have hb' : s.ice < maxIce c q * c.coverage := by
          unfold bare at hb
          simp only [Bool.and_eq_true, decide_eq_true_eq] at hb
          exact hb.2
        have hm : 0 < maxIce c q * c.coverage := lt_of_le_of_lt hs.1 hb'
        unfold through
        apply div_nonneg _ hq.weight.le
        apply mul_nonneg _ (hsq _)
        apply mul_nonneg _ (open_range q hq.block).1
        apply mul_nonneg hc.2.2.2.2.2.2.1.le
        rw [sub_nonneg, div_le_one hm]
        exact hb'.le
      linarith
    · rw [if_neg hb]
      split
      · linarith
      · exact le_refl _
  refine ⟨hG, ?_, ?_, ?_⟩
  · unfold fed
    split
    · linarith
    · exact le_refl _
  · intro hw hv
    unfold fed
    rw [if_neg]
    have hGp : 0 < conductance sq c q s := lt_of_lt_of_le (by positivity) hG
    have : flux sq c q s ≤ 0 := by
      unfold flux
      nlinarith
    have : flux sq c q s * q.outWeight ≤ 0 := mul_nonpos_of_nonpos_of_nonneg this hw.le
    push Not
    linarith
  · intro h
    have hf : feeds q = false := by unfold feeds; simpa using h
    unfold conductance bare
    simp [hf]

/-- **The ice without feed or with a saturated vent**: short of the limits it falls by what sublimates, or melts where nothing can. -/
theorem c89_dry (sq : K → K) (c : Config K) (q : Pass K) (s : State K) (h : q.p0 - q.p1 ≤ 1 / 10) :
    iceRate sq c q s = if rh q < 1 then -sublimation c q s else -melting c q := by
  have hf : feeds q = false := by unfold feeds; simpa using h
  unfold iceRate bare
  simp [hf]

/-- **Breakthrough** is told exactly when feed meets a plate that is not covered and the vent is saturated or at the saturation pressure. -/
theorem c89_breakthrough (c : Config K) (q : Pass K) (s : State K) :
    breaksThrough c q s = true ↔
      1 / 10 < q.p0 - q.p1 ∧ s.ice < maxIce c q * c.coverage ∧ (1 ≤ q.humidity ∨ q.saturation ≤ q.p1) := by
  have hr : rh q < 1 ↔ q.humidity < 1 := by
    unfold rh limitRange
    rw [max_lt_iff, min_lt_iff]
    constructor
    · rintro ⟨h | h, -⟩
      · exact h
      · exact absurd h (lt_irrefl _)
    · intro h; exact ⟨Or.inl h, zero_lt_one⟩
  unfold breaksThrough bare boils feeds
  simp only [Bool.and_eq_true, decide_eq_true_eq, Bool.not_eq_true', Bool.and_eq_false_iff, decide_eq_false_iff_not, hr, not_lt]
  tauto

/-! ## Failures -/

/-- **Failure: a covered plate takes less feed than it vents.**  The comment says the feed rate equals the sublimation rate and the bias;
the code divides them by the feed's pressure, but the flow is by the difference to the vent's, so that with the pressures at rest the feed
is short by the ratio of the pressures (but for the least conductance). -/
theorem c89_short_feed (sq : K → K) (c : Config K) (q : Pass K) (hq : C89Pass q) (s : State K) (hf : 1 / 10 < q.p0 - q.p1)
    (hr : rh q < 1) (hcov : maxIce c q * c.coverage ≤ s.ice) (hv : q.v0 = q.p0) (hw : q.outWeight = q.weight) :
    flux sq c q s * q.outWeight =
      (sublimation c q s + feedBias c q s) * (1 - q.p1 / q.p0) + 1 / 10 ^ 12 * (q.p0 - q.p1) * q.weight := by
  have hfe : feeds q = true := by unfold feeds; simpa using hf
  have hb : bare c q s = false := by unfold bare; simp [hfe, hcov]
  have hp := hq.p0.ne'
  have hwt := hq.weight.ne'
  unfold flux conductance demand
  rw [hb, hv, hw]
  simp only [Bool.false_eq_true, if_false, hfe, hr, and_self, if_true]
  field_simp
  ring

/-- **Failure: ice out of nothing.**  With a covered plate all the feed goes to the vent, and still the ice grows by the sublimation rate
times the ratio of the heats; with a bare plate it grows by this ratio, which is more than one, times all that is fed and sublimated. -/
theorem c89_ice_from_nothing (sq : K → K) (hsq : ∀ x, 0 ≤ sq x) (c : Config K) (hc : c.Valid) (q : Pass K) (hq : C89Pass q) (s : State K)
    (hs : c89Sound c s) (hf : 1 / 10 < q.p0 - q.p1) (hr : rh q < 1) (hv : q.v0 = q.p0) (hw : q.outWeight = q.weight)
    (hroom : s.ice + iceRate sq c q s * q.dt ≤ maxIce c q) :
    (maxIce c q * c.coverage ≤ s.ice →
      nextIce sq c q s = s.ice + sublimation c q s * c.vapor / c.fusion * q.dt) ∧
    (s.ice < maxIce c q * c.coverage → q.p1 < q.saturation → rh q = 0 →
      s.ice + flux sq c q s * q.outWeight * q.dt + sublimation c q s * q.dt < nextIce sq c q s) := by
  have hfe : feeds q = true := by unfold feeds; simpa using hf
  have h0 := sub_nonneg' c q s
  have hfu := hc.1
  have hva := hc.2.1
  have hlt := hc.2.2.1
  constructor
  · intro hcov
    have hb : bare c q s = false := by unfold bare; simp [hfe, hcov]
    have hi : iceRate sq c q s = sublimation c q s * c.vapor / c.fusion := by
      unfold iceRate; rw [hb]; simp [hfe, hr]
    unfold nextIce limitRange
    rw [min_eq_left hroom, hi, max_eq_left]
    have : 0 ≤ sublimation c q s * c.vapor / c.fusion * q.dt := by
      apply mul_nonneg _ hq.dt.le
      apply div_nonneg _ hfu.le
      exact mul_nonneg h0 hva.le
    linarith [hs.1]
  · intro hbare hsat hr0
    have hb : bare c q s = true := by unfold bare; simp [hfe, hbare]
    have hbo : boils q = true := by unfold boils; simp [hr, hsat]
    have hi : iceRate sq c q s =
        (sublimation c q s + conductance sq c q s * (q.p0 - q.p1) * q.weight) * c.vapor / c.fusion := by
      unfold iceRate; rw [if_pos hb, if_pos hbo, hr0]; ring
    have hfl : flux sq c q s * q.outWeight = conductance sq c q s * (q.p0 - q.p1) * q.weight := by
      unfold flux; rw [hv, hw]; ring
    have hG := (c89_feed sq hsq c hc q hq s hs).1
    have hGp : 0 < conductance sq c q s := lt_of_lt_of_le (by positivity) hG
    have hA : 0 < conductance sq c q s * (q.p0 - q.p1) * q.weight := by
      apply mul_pos (mul_pos hGp _) hq.weight
      have : (0 : K) < 1 / 10 := by norm_num
      linarith
    have hX : 0 < sublimation c q s + conductance sq c q s * (q.p0 - q.p1) * q.weight := by linarith
    have hgt : sublimation c q s + conductance sq c q s * (q.p0 - q.p1) * q.weight < iceRate sq c q s := by
      rw [hi, lt_div_iff₀ hfu]
      nlinarith
    have hpos : 0 ≤ s.ice + iceRate sq c q s * q.dt := by
      have : 0 ≤ iceRate sq c q s * q.dt := mul_nonneg (by linarith) hq.dt.le
      linarith [hs.1]
    unfold nextIce limitRange
    rw [min_eq_left hroom, max_eq_left hpos, hfl]
    nlinarith [hq.dt]

/-- **Failure: more vapour than ice**: with any ice, however little, any step and no feed there is a heat that vents more in the step than
there is. -/
theorem c89_over (c : Config K) (hc : c.Valid) (q : Pass K) (hq : C89Pass q) (s : State K) (hi : 0 < s.ice) (hr : rh q < 1) :
    ∃ h : K, s.ice < vented c { q with heat := h } s * q.dt := by
  have hf := hc.1
  have hv := hc.2.1
  have hs : 0 < c.vapor + c.fusion := by linarith
  have hd := dblEps_pos (K := K)
  obtain ⟨x, hx⟩ : ∃ x : K, x = s.ice / q.dt + 100 * dblEps + 1 := ⟨_, rfl⟩
  have hx0 : 0 < x := by
    have : 0 < s.ice / q.dt := div_pos hi hq.dt
    linarith
  refine ⟨-(x * ((c.vapor + c.fusion) * 1000)), ?_⟩
  have hq' : C89Pass { q with heat := -(x * ((c.vapor + c.fusion) * 1000)) } := ⟨hq.dt, hq.p0, hq.density, hq.weight, hq.vent, hq.block⟩
  obtain ⟨h1, -, h3⟩ := c89_vent c hc _ hq' s
  have h4 := h1 hr hi
  simp only [neg_neg] at h4
  rw [max_eq_right (by positivity)] at h4
  have h5 := mul_right_cancel₀ (by positivity : (c.vapor + c.fusion) * 1000 ≠ 0) h4
  rw [h3, h5, if_pos (by have : 0 < s.ice / q.dt := div_pos hi hq.dt; linarith), hx]
  have : s.ice / q.dt * q.dt = s.ice := div_mul_cancel₀ _ hq.dt.ne'
  nlinarith [hq.dt]

/-- **Failure: the heat is spent twice**: a bare plate at the saturation pressure with an unsaturated vent sublimates with all the heat and
melts with all the heat. -/
theorem c89_heat_twice (sq : K → K) (c : Config K) (hc : c.Valid) (q : Pass K) (s : State K) (hi : 0 < s.ice) (hr : rh q < 1)
    (hf : 1 / 10 < q.p0 - q.p1) (hb : s.ice < maxIce c q * c.coverage) (hsat : q.saturation ≤ q.p1) (hh : q.heat ≤ 0) :
    sublimation c q s * ((c.vapor + c.fusion) * 1000) + -iceRate sq c q s * (c.fusion * 1000) = 2 * -q.heat := by
  have hfe : feeds q = true := by unfold feeds; simpa using hf
  have hba : bare c q s = true := by unfold bare; simp [hfe, hb]
  have hbo : boils q = false := by unfold boils; simp [hsat]
  have hfu := hc.1
  have hva := hc.2.1
  have hs : 0 < c.vapor + c.fusion := by linarith
  unfold iceRate sublimation melting
  rw [hba, hbo, if_pos ⟨hr, hi⟩]
  simp only [if_true, Bool.false_eq_true, if_false]
  rw [max_eq_right, max_eq_right]
  · field_simp; ring
  · apply mul_nonneg _ (by norm_num); apply div_nonneg _ hfu.le; linarith
  · apply mul_nonneg _ (by norm_num); apply div_nonneg _ hs.le; linarith

/-- **Failure of the document**: it assumes that the heat balance is always positive, of which the code makes neither vapour nor melting. -/
theorem c89_sign (c : Config K) (hc : c.Valid) (q : Pass K) (hq : C89Pass q) (s : State K) (h : 0 < q.heat) :
    sublimation c q s = 0 ∧ melting c q = 0 := by
  refine ⟨((c89_vent c hc q hq s).2.1 (Or.inr (Or.inr h.le))).1, ?_⟩
  unfold melting
  apply max_eq_left
  apply mul_nonpos_of_nonpos_of_nonneg _ (by norm_num)
  apply div_nonpos_of_nonpos_of_nonneg _ hc.1.le
  linarith

/-! ## Examples -/

private def c89config : Config ℚ :=
  { vapor := 2257
    fusion := 334
    maxIce := 1
    coverage := 1 / 2
    maxCond := 500
    plate := 1 / 10000
    gain := 1 / 100 }

private def c89pass : Pass ℚ :=
  { dt := 1 / 10
    humidity := 0
    heat := -2591
    p0 := 20
    p1 := 5
    v0 := 20
    density := 1000
    weight := 18
    outWeight := 18
    ventWeight := 18
    saturation := 6
    bias := none
    block := none }

private theorem c89config_valid : c89config.Valid := by
  refine ⟨?_, ?_, ?_, ?_, ?_, ⟨?_, ?_⟩, ?_, ?_, ?_⟩ <;> decide +kernel

private theorem c89pass_ok : C89Pass c89pass :=
  ⟨by decide +kernel, by decide +kernel, by decide +kernel, by decide +kernel, by decide +kernel, fun b h => by cases h⟩

private def c89covered : State ℚ := { ice := 3 / 4, cond := 0 }

private def c89bare : State ℚ := { ice := 1 / 4, cond := 0 }

/-- A gram of vapour a second is vented and only three quarters of a gram fed, while the ice grows. -/
example : vented c89config c89pass c89covered = 1 / 1000 ∧
    sublimation c89config c89pass c89covered * (1 - c89pass.p1 / c89pass.p0) = 75 / 100000 ∧
    c89covered.ice < nextIce (fun _ => 2) c89config c89pass c89covered := by
  decide +kernel

/-- The hypotheses of both parts of `c89_ice_from_nothing`. -/
example : c89Sound c89config c89covered ∧ c89Sound c89config c89bare ∧
    c89covered.ice + iceRate (fun _ => 2) c89config c89pass c89covered * c89pass.dt ≤ maxIce c89config c89pass ∧
    c89bare.ice + iceRate (fun _ => 2) c89config c89pass c89bare * c89pass.dt ≤ maxIce c89config c89pass ∧
    c89bare.ice < maxIce c89config c89pass * c89config.coverage ∧ maxIce c89config c89pass * c89config.coverage ≤ c89covered.ice ∧
    rh c89pass = 0 := by
  refine ⟨⟨?_, ?_, ?_, ?_⟩, ⟨?_, ?_, ?_, ?_⟩, ?_, ?_, ?_, ?_, ?_⟩ <;> decide +kernel

example : ∃ h : ℚ, c89bare.ice < vented c89config { c89pass with heat := h } c89bare * c89pass.dt :=
  c89_over c89config c89config_valid c89pass c89pass_ok c89bare (by decide +kernel) (by decide +kernel)

/-- Breakthrough into a saturated vent. -/
example : breaksThrough c89config { c89pass with humidity := 2 } c89bare = true := by decide +kernel

end Gunns.Props
