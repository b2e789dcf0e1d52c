import Verif.Elect.ConverterRun
import Mathlib.Data.Rat.Defs
import Mathlib.Algebra.Order.Ring.Rat

/-!
# Property C54: the power balance and the states of electrical converters

What a converter takes from the network at its input is what it gives at its output plus what it reports as losses;
a regulator lets no current back; in one major step each side changes its state a bounded number of times.
-/

set_option linter.unusedSectionVars false

namespace Gunns.Props

open Gunns Gunns.Elements Gunns.Conv

variable {K : Type _} [Field K] [LinearOrder K] [IsStrictOrderedRing K]

/-! ## Samples -/

/-- A trip that is not used. -/
def noTrip : Sw.Trip ℚ := ⟨false, false, 0, 0, false⟩

/-- A regulator of 10 V behind 2 S with an efficiency of 1/2. -/
def sampleOut : Out ℚ where
  ground := false
  reg := .voltage
  conductance := 2
  efficiency := 1 / 2
  limiting := false
  flipsLimit := 2
  enabled := true
  blockFlag := false
  blockValue := 0
  vSensor := none
  iSensor := none
  ov := noTrip
  uv := noTrip
  oc := noTrip
  resetCmd := false
  leads := false
  setpoint := 10
  voltage := 100
  inputPower := 0
  available := true
  channelLoss := 0
  loss := 0
  voltageValid := true
  powerValid := true
  reverse := false
  reverseFlips := 0
  limit := .no
  limitFlips := 0
  sourceVoltage := 10
  resistance := 1
  pot := 9
  adm := 2
  source := 20
  flux := 0
  power := 0

/-- An input at 100 V with an efficiency of 4/5 at all loads. -/
def sampleIn : In ℚ where
  ground := false
  enabled := true
  blockFlag := false
  blockValue := 0
  table := some fun _ => 4 / 5
  sensor := none
  refPower := 100
  uv := noTrip
  ov := noTrip
  resetCmd := false
  leads := true
  voltage := 100
  load := 40
  overloaded := false
  voltageValid := true
  powerValid := true
  efficiency := 1
  loss := 0
  pot := 100
  adm := 0
  source := 0
  flux := 0
  power := 0

/-- The pair of the two. -/
def samplePair : Pair ℚ := ⟨sampleIn, sampleOut, true⟩

theorem sampleOut_on : sampleOut.On := ⟨rfl, rfl, rfl, rfl, rfl⟩

theorem sampleOut_sound : sampleOut.Sound := by unfold Out.Sound; decide +kernel

/-- The square root is not used by the samples below. -/
def noRoot : ℚ → ℚ := fun x => x

/-! ## The output -/

/-- C54: an output that is disabled, unpowered or tripped is not connected to its node. -/
theorem c54_off (sq : K → K) (o : Out K) (h : ¬ o.On) (v : K) :
    ({ o.contribute sq with pot := v } : Out K).delivered = 0 := by
  obtain ⟨h1, h2, -⟩ := contribute_off sq o h
  unfold Out.delivered
  dsimp only
  rw [h1, h2]
  ring

example : ¬ ({ sampleOut with enabled := false } : Out ℚ).On := fun h => by cases h.1

/-- C54: a voltage regulator that is on, forward biased and not limiting is a source of the voltage it is to hold behind
its conductance, and, scaled with its efficiency, asks the input for the power of that source: voltage times
current.  The loss it reports is not less than the loss in the conductance. -/
theorem c54_source_power (sq : K → K) (o : Out K) (hs : o.Sound) (hr : o.reg.Holds) (hl : o.limit ≠ .oc) (hon : o.On)
    (hrev : o.reverse = false) (hb : o.blockFlag = false) (hc : o.conductance ≤ 10 ^ 15) (hg : o.ground = false)
    (v : K) (hv : v ≤ o.target) :
    let q : Out K := { o.contribute sq with
      pot := v
      powerValid := true };
    q.delivered = o.conductance * (o.target - v) ∧
    q.computePower.1 * o.efficiency = o.target * q.delivered ∧
    q.computePower.2.power = v * q.delivered ∧
    q.computePower.1 = q.computePower.2.power + q.computePower.2.loss ∧
    (0 ≤ o.target → 0 ≤ q.delivered * q.delivered / o.conductance ∧
      q.delivered * q.delivered / o.conductance ≤ q.computePower.2.loss) := by
  intro q
  obtain ⟨r, -, he⟩ := contribute_on sq o hon
  have hso : ({ o with resistance := r } : Out K).sources sq = (o.conductance, o.target, 0) := by
    rw [sources_volt sq { o with resistance := r } hr hl]
    show (o.block o.conductance, o.target, 0) = _
    rw [block_id o _ hb]
  rw [hso, hrev] at he
  dsimp only at he
  have hpos : 0 < o.conductance := dblEps_pos.trans_le hs.1
  have hG : limitRange 0 (if false = true then (0 : K) else o.conductance) condLimit = o.conductance := by
    rw [if_neg Bool.false_ne_true]
    exact limitRange_id hpos.le hc
  rw [hG] at he
  have hd : q.delivered = o.conductance * (o.target - v) := by
    show (o.contribute sq).source - (o.contribute sq).adm * v = _
    rw [he]
    dsimp only
    ring
  have hd0 : 0 ≤ q.delivered := by
    rw [hd]
    exact mul_nonneg hpos.le (sub_nonneg.mpr hv)
  have hsq : q.Sound ∧ q.ground = false ∧ q.conductance = o.conductance ∧ q.efficiency = o.efficiency := by
    have h1 : q.conductance = o.conductance := by show (o.contribute sq).conductance = _; rw [he]
    have h2 : q.efficiency = o.efficiency := by show (o.contribute sq).efficiency = _; rw [he]
    have h3 : q.ground = o.ground := by show (o.contribute sq).ground = _; rw [he]
    refine ⟨?_, h3.trans hg, h1, h2⟩
    unfold Out.Sound
    rw [h1, h2]
    exact hs
  obtain ⟨q1, q2, q3, q4⟩ := hsq
  obtain ⟨p1, p2⟩ := computePower_spec q q1 q2 rfl
  rw [max_eq_right hd0, q3] at p1 p2
  rw [q4] at p1
  have hqp : q.pot = v := rfl
  rw [hqp] at p1 p2
  have hpow : q.computePower.2.power = v * q.delivered := by rw [p2]; exact mul_comm _ _
  have hloss : q.computePower.2.loss = q.computePower.1 - q.delivered * v := by rw [p2]
  have hsrc : q.computePower.1 * o.efficiency = o.target * q.delivered := by
    rw [p1]
    have : q.delivered * q.delivered / o.conductance = q.delivered * (o.target - v) := by
      rw [div_eq_iff hpos.ne']
      nth_rw 2 [hd]
      ring
    rw [this]
    ring
  refine ⟨hd, hsrc, hpow, ?_, fun ht => ⟨?_, ?_⟩⟩
  · rw [hpow, hloss]
    ring
  · exact div_nonneg (mul_nonneg hd0 hd0) hpos.le
  · have hch : q.delivered * q.delivered / o.conductance = q.computePower.1 * o.efficiency - q.delivered * v := by
      rw [p1]; ring
    rw [hloss, hch]
    have heff : 0 < o.efficiency := dblEps_pos.trans_le hs.2.1
    have hin : 0 ≤ q.computePower.1 := by
      by_contra hneg
      have := mul_neg_of_neg_of_pos (not_le.mp hneg) heff
      rw [hsrc] at this
      exact absurd this (not_lt.mpr (mul_nonneg ht hd0))
    have := mul_le_mul_of_nonneg_left hs.2.2 hin
    linarith

example : sampleOut.Sound ∧ sampleOut.reg.Holds ∧ sampleOut.limit ≠ .oc ∧ sampleOut.On ∧ (9 : ℚ) ≤ sampleOut.target :=
  ⟨sampleOut_sound, Or.inl rfl, by decide, sampleOut_on, by decide +kernel⟩

/-- 2 A at 9 V: 18 W delivered, 2 W lost in the conductance, 40 W asked of the input. -/
example : ({ sampleOut.contribute noRoot with
      pot := 9
      powerValid := true } : Out ℚ).computePower.1 = 40 := by decide +kernel

/-- C54, failure: with a partial blockage the current flows through the reduced conductance, but the loss is computed
for the full one.  The power asked of the input is short of voltage times current, whenever a current flows. -/
theorem c54_blocked (sq : K → K) (o : Out K) (hs : o.Sound) (hr : o.reg.Holds) (hl : o.limit ≠ .oc) (hon : o.On)
    (hrev : o.reverse = false) (hb : o.blockFlag = true) (h0 : 0 < o.blockValue) (h1 : o.blockValue < 1)
    (hc : o.conductance ≤ 10 ^ 15) (hg : o.ground = false) (v : K) (hv : v < o.target) :
    let q : Out K := { o.contribute sq with
      pot := v
      powerValid := true };
    0 < q.delivered ∧ q.computePower.1 * o.efficiency < o.target * q.delivered := by
  intro q
  obtain ⟨r, -, he⟩ := contribute_on sq o hon
  have hblk : ({ o with resistance := r } : Out K).block o.conductance = o.conductance * (1 - o.blockValue) := by
    unfold Out.block
    rw [if_pos (show ({ o with resistance := r } : Out K).blockFlag = true from hb)]
    dsimp only
    rw [limitRange_id h0.le h1.le]
  have hso : ({ o with resistance := r } : Out K).sources sq = (o.conductance * (1 - o.blockValue), o.target, 0) := by
    rw [sources_volt sq { o with resistance := r } hr hl]
    dsimp only
    rw [hblk]
    rfl
  rw [hso, hrev] at he
  dsimp only at he
  have hpos : 0 < o.conductance := dblEps_pos.trans_le hs.1
  have hpos' : 0 < o.conductance * (1 - o.blockValue) := mul_pos hpos (sub_pos.mpr h1)
  have hle : o.conductance * (1 - o.blockValue) ≤ o.conductance :=
    mul_le_of_le_one_right hpos.le (by linarith)
  have hG : limitRange 0 (if false = true then (0 : K) else o.conductance * (1 - o.blockValue)) condLimit =
      o.conductance * (1 - o.blockValue) := by
    rw [if_neg Bool.false_ne_true]
    exact limitRange_id hpos'.le (hle.trans hc)
  rw [hG] at he
  have hd : q.delivered = o.conductance * (1 - o.blockValue) * (o.target - v) := by
    show (o.contribute sq).source - (o.contribute sq).adm * v = _
    rw [he]
    dsimp only
    ring
  have hd0 : 0 < q.delivered := by
    rw [hd]
    exact mul_pos hpos' (sub_pos.mpr hv)
  have hc1 : q.conductance = o.conductance := by show (o.contribute sq).conductance = _; rw [he]
  have hc2 : q.efficiency = o.efficiency := by show (o.contribute sq).efficiency = _; rw [he]
  have hc3 : q.ground = false := by
    have : q.ground = o.ground := by show (o.contribute sq).ground = _; rw [he]
    exact this.trans hg
  have hS : q.Sound := by
    unfold Out.Sound
    rw [hc1, hc2]
    exact hs
  obtain ⟨p1, -⟩ := computePower_spec q hS hc3 rfl
  rw [max_eq_right hd0.le, hc1, hc2, show q.pot = v from rfl] at p1
  refine ⟨hd0, ?_⟩
  rw [p1]
  have : q.delivered * q.delivered / o.conductance = q.delivered * ((1 - o.blockValue) * (o.target - v)) := by
    rw [div_eq_iff hpos.ne']
    nth_rw 2 [hd]
    ring
  rw [this]
  have hx : (1 - o.blockValue) * (o.target - v) < o.target - v := by
    have := mul_pos h0 (sub_pos.mpr hv)
    linarith
  have := mul_lt_mul_of_pos_left hx hd0
  linarith

/-- Half blocked, 1 A: the source gives 10 W, the input is asked for 9.5 W (divided by the efficiency). -/
example : ({ ({ sampleOut with
      blockFlag := true
      blockValue := 1 / 2 } : Out ℚ).contribute noRoot with
      pot := 9
      powerValid := true } : Out ℚ).computePower.1 = 19 := by decide +kernel

/-- C54: a voltage regulator in over-current limiting gives at most the current of the limit to a node of positive
potential. -/
theorem c54_limits_current (sq : K → K) (o : Out K) (hr : o.reg.Holds) (hl : o.limit = .oc) (hon : o.On)
    (hrev : o.reverse = false) (v : K) (hv : 0 ≤ v) :
    ({ o.contribute sq with pot := v } : Out K).delivered = o.oc.limit - fltEps * v ∧
    ({ o.contribute sq with pot := v } : Out K).delivered ≤ o.oc.limit := by
  obtain ⟨r, -, he⟩ := contribute_on sq o hon
  rw [sources_oc sq { o with resistance := r } hr hl, hrev] at he
  dsimp only at he
  have hf : (fltEps : K) ≤ condLimit := by
    unfold fltEps condLimit
    norm_num
  have hG : limitRange 0 (if false = true then (0 : K) else fltEps) condLimit = fltEps := by
    rw [if_neg Bool.false_ne_true]
    exact limitRange_id fltEps_pos.le hf
  rw [hG] at he
  have hd : ({ o.contribute sq with pot := v } : Out K).delivered = o.oc.limit - fltEps * v := by
    show (o.contribute sq).source - (o.contribute sq).adm * v = _
    rw [he]
    dsimp only
    ring
  refine ⟨hd, ?_⟩
  rw [hd]
  have := mul_nonneg fltEps_pos.le hv
  linarith

example : ({ sampleOut with
      limit := .oc
      oc := ⟨false, false, 3, 1, false⟩ } : Out ℚ).limit = .oc ∧ (({ sampleOut with
      limit := .oc
      oc := ⟨false, false, 3, 1, false⟩ } : Out ℚ).contribute noRoot).source = 3 := by decide +kernel

/-- C54: a voltage regulator is a diode.  If it accepts a converged solution, the current of the solution flows out of
it; unless it is limiting its current, or it has used up the changes to reverse bias of this major step. -/
theorem c54_diode (sq : K → K) (o : Out K) (hr : o.reg.Holds) (v : K) (n : Nat) (hn : 0 < n)
    (hacc : (({ o.contribute sq with pot := v } : Out K).judge sq n).1 ≠ .reject) :
    0 ≤ ({ o.contribute sq with pot := v } : Out K).delivered ∨ o.limit = .oc ∨ o.flipsLimit ≤ o.reverseFlips := by
  by_cases hl : o.limit = .oc
  · exact Or.inr (Or.inl hl)
  by_cases hon : o.On
  · obtain ⟨r, -, he⟩ := contribute_on sq o hon
    have hso := sources_volt sq { o with resistance := r } hr hl
    dsimp only at he
    rw [hso] at he
    have hg0 := (limitRange_mem 0 (if o.reverse = true then (0 : K)
      else ({ o with resistance := r } : Out K).block o.conductance) condLimit condLimit_pos.le).1
    have ht : ({ o with resistance := r } : Out K).target = o.target := rfl
    rw [ht] at he
    have h1 := judge_first sq _ n hacc
    have f1 : (o.contribute sq).reg = o.reg := by rw [he]
    have f2 : (o.contribute sq).limit = o.limit := by rw [he]
    have f3 : (o.contribute sq).reverse = o.reverse := by rw [he]
    have f4 : (o.contribute sq).sourceVoltage = o.target := by rw [he]
    have f5 : (o.contribute sq).flipsLimit = o.flipsLimit := by rw [he]
    have f6 : (o.contribute sq).reverseFlips = o.reverseFlips := by rw [he]
    have h2 := updateBias_state _ _ n hn ((isVoltage_iff _).mpr (f1.symm ▸ hr)) (by dsimp only; rw [f2]; exact hl) h1
    dsimp only at h2
    rw [f3, f4, f5, f6] at h2
    rcases h2 with ⟨-, h⟩ | ⟨h, -⟩ | ⟨-, -, h⟩
    · left
      rw [he]
      unfold Out.delivered
      dsimp only
      have := mul_nonneg hg0 (sub_nonneg.mpr h)
      linarith
    · left
      rw [he]
      unfold Out.delivered
      dsimp only
      rw [h, if_pos rfl, limitRange_id le_rfl condLimit_pos.le]
      linarith
    · exact Or.inr (Or.inr h)
  · left
    rw [c54_off sq o hon v]

/-- Accepted with a current of 2 A; rejected at 11 V, where the current would flow back. -/
example : (({ sampleOut.contribute noRoot with pot := 9 } : Out ℚ).judge noRoot 1).1 = .confirm ∧
    (({ sampleOut.contribute noRoot with pot := 11 } : Out ℚ).judge noRoot 1).1 = .reject := by decide +kernel

/-- C54, failure: with no flips left a solution is accepted in which the regulator takes 2 A out of its node, and the
current it reports for the bookkeeping of the nodes is zero. -/
theorem c54_exhausted :
    ∃ (o : Out ℚ) (v : ℚ), o.reg = .voltage ∧ o.limit = .no ∧ o.On ∧
      (({ o.contribute noRoot with pot := v } : Out ℚ).judge noRoot 1).1 = .confirm ∧
      ({ o.contribute noRoot with pot := v } : Out ℚ).delivered = -2 ∧
      ({ o.contribute noRoot with pot := v } : Out ℚ).flows.flux = 0 :=
  ⟨{ sampleOut with reverseFlips := 2 }, 11, rfl, rfl, ⟨rfl, rfl, rfl, rfl, rfl⟩, by decide +kernel, by decide +kernel,
    by decide +kernel⟩

/-- C54: the POWER regulator.  When its estimate of the load has settled (the same current and potential twice), the
power it delivers is the setpoint, up to the small conductance that is there to help convergence. -/
theorem c54_power_setpoint (sq : K → K) (o : Out K)
    (hsq : sq (o.setpoint / (o.pot / o.delivered)) * sq (o.setpoint / (o.pot / o.delivered)) =
      o.setpoint / (o.pot / o.delivered))
    (hreg : o.reg = .power) (hl : o.limit = .no) (hon : o.On) (hrev : o.reverse = false) (hb : o.blockFlag = false)
    (hset : 0 < o.setpoint) (hI : dblEps < o.delivered) (hv : dblEps < o.pot)
    (hsteady : (o.contribute sq).delivered = o.delivered) :
    o.delivered * o.pot =
      o.setpoint - (2 * fltEps * o.pot * o.pot + fltEps * fltEps * o.pot * o.pot * o.pot / o.delivered) ∧
    o.delivered * o.pot < o.setpoint := by
  obtain ⟨r, hrr, he⟩ := contribute_on sq o hon
  have hI0 : 0 < o.delivered := dblEps_pos.trans hI
  have hv0 : 0 < o.pot := dblEps_pos.trans hv
  have hmax : max 0 o.delivered = o.delivered := max_eq_right hI0.le
  rw [hmax] at hrr he
  have hr := hrr hI hv
  have hrpos : 0 < r := by rw [hr]; exact div_pos hv0 hI0
  have hso : ({ o with resistance := r } : Out K).sources sq = (fltEps, 0, sq (o.setpoint / r)) := by
    unfold Out.sources
    dsimp only
    rw [hreg, hl]
    have : (Reg.power).isVoltage = false := rfl
    rw [this, if_neg Bool.false_ne_true, if_neg (by decide), if_neg (by decide), if_neg (by decide),
      if_pos ⟨hset, hrpos⟩]
    show (fltEps, 0, o.block (sq (o.setpoint / r))) = _
    rw [block_id o _ hb]
  rw [hso, hrev] at he
  dsimp only at he
  have hf : (fltEps : K) ≤ condLimit := by
    unfold fltEps condLimit
    norm_num
  have hG : limitRange 0 (if false = true then (0 : K) else fltEps) condLimit = fltEps := by
    rw [if_neg Bool.false_ne_true]
    exact limitRange_id fltEps_pos.le hf
  rw [hG] at he
  have hd : (o.contribute sq).delivered = sq (o.setpoint / r) - fltEps * o.pot := by
    rw [he]
    unfold Out.delivered
    dsimp only
    ring
  rw [hd] at hsteady
  have hss := hsq
  rw [← hr] at hss
  have hsum : sq (o.setpoint / r) = o.delivered + fltEps * o.pot := by linarith
  rw [hsum, hr] at hss
  have hP : o.setpoint * o.delivered = (o.delivered + fltEps * o.pot) * (o.delivered + fltEps * o.pot) * o.pot := by
    rw [hss]
    field_simp
  have hmain : o.delivered * o.pot =
      o.setpoint - (2 * fltEps * o.pot * o.pot + fltEps * fltEps * o.pot * o.pot * o.pot / o.delivered) := by
    have hne := hI0.ne'
    field_simp
    linear_combination -hP
  refine ⟨hmain, ?_⟩
  have hfe : (0 : K) < fltEps := fltEps_pos
  have : 0 < 2 * fltEps * o.pot * o.pot + fltEps * fltEps * o.pot * o.pot * o.pot / o.delivered := by positivity
  linarith

/-- A state in which the estimate has settled: 1 A at 1 V. -/
def settled : Out ℚ :=
  { sampleOut with
    reg := .power
    setpoint := (1 + fltEps) * (1 + fltEps)
    pot := 1
    adm := 0
    source := 1 }

/-- A square root for this state. -/
def settledRoot (x : ℚ) : ℚ := if x = (1 + fltEps) * (1 + fltEps) then 1 + fltEps else 0

example : dblEps < settled.delivered ∧ dblEps < settled.pot ∧
    settledRoot (settled.setpoint / (settled.pot / settled.delivered)) *
      settledRoot (settled.setpoint / (settled.pot / settled.delivered)) =
        settled.setpoint / (settled.pot / settled.delivered) ∧
    (settled.contribute settledRoot).delivered = settled.delivered := by decide +kernel

/-! ## The input -/

/-- C54: the input never gives current to its node, and takes none when it is off. -/
theorem c54_only_draws (i : In K) :
    (i.contribute.adm = 0 ∧ 0 ≤ i.contribute.drawn) ∧
    ((i.enabled = false ∨ i.overloaded = true ∨ i.ov.tripped = true ∨ i.uv.tripped = true) → i.contribute.drawn = 0) := by
  refine ⟨⟨rfl, ?_⟩, fun h => ?_⟩
  · show 0 ≤ 0 * i.pot - min 0 (-i.current (i.load / i.efficiencyNow))
    have := min_le_left 0 (-i.current (i.load / i.efficiencyNow))
    linarith
  · have hz : i.current (i.load / i.efficiencyNow) = 0 := by
      unfold In.current
      rw [if_neg]
      rcases h with h | h | h | h <;> rw [h] <;> simp
    show 0 * i.pot - min 0 (-i.current (i.load / i.efficiencyNow)) = 0
    rw [hz]
    simp

/-- The scaled load of the input. -/
theorem scaled_nonneg (i : In K) (h : 0 ≤ i.load) :
    0 < i.efficiencyNow ∧ i.efficiencyNow ≤ 1 ∧ i.load ≤ i.load / i.efficiencyNow := by
  obtain ⟨h1, h2⟩ := limitRange_mem dblEps (if i.blockFlag then
    (match i.table with
      | some f => f (i.load / max dblEps i.refPower)
      | none => 1) * (1 - limitRange 0 i.blockValue 1) else
    match i.table with
      | some f => f (i.load / max dblEps i.refPower)
      | none => 1) (1 : K) dblEps_lt_one.le
  have e1 : dblEps ≤ i.efficiencyNow := h1
  have e2 : i.efficiencyNow ≤ 1 := h2
  have e0 : 0 < i.efficiencyNow := dblEps_pos.trans_le e1
  refine ⟨e0, e2, ?_⟩
  rw [le_div_iff₀ e0]
  exact mul_le_of_le_one_right h e2

/-- C54: an input that is on takes from its node the power asked for by the output plus the loss it reports, and this
loss is not negative, as long as its voltage is above 0.99 of the under-voltage limit. -/
theorem c54_draws_load (i : In K) (hon : i.On) (hload : 0 ≤ i.load) (hvolt : i.voltage = i.pot) (hv : dblEps < i.pot)
    (huv : i.uv.limit ≤ dblEps ∨ 99 / 100 * i.uv.limit ≤ i.pot) :
    i.contribute.drawn * i.pot = i.load + i.contribute.loss ∧ 0 ≤ i.contribute.loss ∧
    i.contribute.drawn * i.pot * i.contribute.efficiency = i.load := by
  obtain ⟨e0, e1, e2⟩ := scaled_nonneg i hload
  have hv0 : 0 < i.pot := dblEps_pos.trans hv
  have hcur : i.current (i.load / i.efficiencyNow) = i.load / i.efficiencyNow / i.pot := by
    unfold In.current
    obtain ⟨o1, o2, o3, o4⟩ := hon
    rw [o1, o2, o3, o4]
    simp only [Bool.or_false, Bool.not_false, Bool.and_true, if_true]
    rw [if_neg (not_lt.mpr hv0.le), hvolt]
    by_cases hu : i.uv.limit > dblEps
    · rw [if_pos hu]
      rcases huv with g | g
      · exact absurd hu (not_lt.mpr g)
      · rw [max_eq_left g]
    · rw [if_neg hu, if_pos hv]
  have hdr : i.contribute.drawn = i.load / i.efficiencyNow / i.pot := by
    show 0 * i.pot - min 0 (-i.current (i.load / i.efficiencyNow)) = _
    rw [hcur]
    have : 0 ≤ i.load / i.efficiencyNow / i.pot := div_nonneg (hload.trans e2) hv0.le
    rw [min_eq_right (by linarith)]
    ring
  have hloss : i.contribute.loss = i.load / i.efficiencyNow - i.load := rfl
  have heff : i.contribute.efficiency = i.efficiencyNow := rfl
  rw [hdr, hloss, heff]
  refine ⟨?_, by linarith, ?_⟩
  · rw [div_mul_cancel₀ _ hv0.ne']
    ring
  · rw [div_mul_cancel₀ _ hv0.ne', div_mul_cancel₀ _ e0.ne']

/-- 40 W asked for at 100 V and an efficiency of 4/5: 50 W are taken. -/
example : sampleIn.On ∧ sampleIn.contribute.drawn = 1 / 2 ∧ sampleIn.contribute.loss = 10 :=
  ⟨⟨rfl, rfl, rfl, rfl⟩, by decide +kernel, by decide +kernel⟩

/-- C54, failure: below 0.99 of the under-voltage limit an input that does not trip (trip inhibited, priority zero, or a
sensor that reads high) takes less power than the output is given. -/
theorem c54_undervoltage (i : In K) (hon : i.On) (hload : 0 < i.load) (hvolt : i.voltage = i.pot)
    (hv : 0 < i.pot) (hlim : dblEps < i.uv.limit) (huv : i.pot < 99 / 100 * i.uv.limit) :
    i.contribute.drawn * i.pot < i.load + i.contribute.loss := by
  obtain ⟨e0, -, e2⟩ := scaled_nonneg i hload.le
  have hpos : 0 < i.load / i.efficiencyNow := hload.trans_le e2
  have hcur : i.current (i.load / i.efficiencyNow) = i.load / i.efficiencyNow / (99 / 100 * i.uv.limit) := by
    unfold In.current
    obtain ⟨o1, o2, o3, o4⟩ := hon
    rw [o1, o2, o3, o4]
    simp only [Bool.or_false, Bool.not_false, Bool.and_true, if_true]
    rw [if_neg (not_lt.mpr hv.le), hvolt, if_pos hlim, max_eq_right huv.le]
  have hL : 0 < 99 / 100 * i.uv.limit := hv.trans huv
  have hdr : i.contribute.drawn = i.load / i.efficiencyNow / (99 / 100 * i.uv.limit) := by
    show 0 * i.pot - min 0 (-i.current (i.load / i.efficiencyNow)) = _
    rw [hcur]
    have := (div_pos hpos hL).le
    rw [min_eq_right (by linarith)]
    ring
  have hloss : i.contribute.loss = i.load / i.efficiencyNow - i.load := rfl
  rw [hdr, hloss, div_mul_eq_mul_div, div_lt_iff₀ hL]
  have := mul_lt_mul_of_pos_left huv hpos
  linarith

/-- At half of the limit, half of the power is taken. -/
example : ({ sampleIn with
    pot := 99
    voltage := 99
    uv := ⟨true, false, 200, 1, false⟩ } : In ℚ).contribute.drawn * 99 = 25 := by decide +kernel

/-! ## The pair -/

theorem contribute_keeps (sq : K → K) (o : Out K) :
    (o.contribute sq).pot = o.pot ∧ (o.contribute sq).loss = o.loss ∧ (o.contribute sq).ground = o.ground := by
  unfold Out.contribute
  obtain ⟨f, r, he, -⟩ := estimateLoad_eq o
  rw [he]
  exact ⟨rfl, rfl, rfl⟩

/-- C54: when a solution repeats itself (the minor step changes neither the sources of the output nor, by the solution,
the potentials), the power the input takes from its node is the power the output gives to its node, plus the losses the
two links report.  Whichever of the links comes first. -/
theorem c54_balance (sq : K → K) (p : Pair K) (n : Nat) (hlinked : p.linked = true)
    (hlead : p.out.leads = !p.inp.leads) (hgi : p.inp.ground = false) (hgo : p.out.ground = false)
    (hval : p.out.powerValid = true) (hs : p.out.Sound) (hon : p.inp.On)
    (hblk : p.inp.blockFlag = false) (hload : 0 ≤ p.out.computePower.1) (hv : dblEps < p.inp.pot)
    (huv : p.inp.uv.limit ≤ dblEps ∨ 99 / 100 * p.inp.uv.limit ≤ p.inp.pot)
    (hadm : (p.round sq n).out.adm = p.out.adm) (hsrc : (p.round sq n).out.source = p.out.source) :
    let q := p.round sq n;
    q.inp.flows.flux * q.inp.pot = q.out.flows.flux * q.out.pot + q.out.loss + q.inp.loss := by
  intro q
  have hv0 : 0 < p.inp.pot := dblEps_pos.trans hv
  have hcv : p.inp.computeVoltage = p.inp.pot := by
    unfold In.computeVoltage
    obtain ⟨o1, -, o3, o4⟩ := hon
    rw [o1, o3, o4, hblk]
    simp only [Bool.not_true, Bool.or_false, Bool.false_and, Bool.false_eq_true, if_false]
    exact max_eq_right hv0.le
  obtain ⟨c1, c2⟩ := computePower_spec p.out hs hgo hval
  -- the input after the minor step
  have key : ∃ i : In K, i.On ∧ i.load = p.out.computePower.1 ∧ i.voltage = i.pot ∧ i.pot = p.inp.pot ∧
      i.uv = p.inp.uv ∧ i.ground = false ∧ q.inp = i.contribute ∧
      q.out.pot = p.out.pot ∧ q.out.ground = false ∧
      q.out.loss = p.out.computePower.1 - max 0 p.out.delivered * p.out.pot := by
    have hq : q = p.round sq n := rfl
    unfold Pair.round at hq
    cases hL : p.inp.leads with
    | true =>
      rw [hL, if_pos rfl] at hq
      have hout : p.out.leads = false := by rw [hlead, hL]; rfl
      have h1 : p.inMinor = { p with
          inp := ({ p.inp with
            voltage := p.inp.computeVoltage
            load := p.out.computePower.1
            powerValid := p.out.powerValid } : In K).contribute
          out := { p.out.computePower.2 with voltage := p.inp.computeVoltage } } := by
        unfold Pair.inMinor
        rw [hgi, if_neg Bool.false_ne_true, hlinked]
        dsimp only
        rw [if_pos rfl, hL, if_pos rfl]
      rw [h1] at hq
      obtain ⟨o, ho⟩ : ∃ o : Out K, o = { p.out.computePower.2 with voltage := p.inp.computeVoltage } := ⟨_, rfl⟩
      rw [← ho] at hq
      have ho1 : o.ground = false := by rw [ho, c2]; exact hgo
      have ho2 : o.leads = false := by rw [ho, c2]; exact hout
      have ho3 : o.powerValid = true := by rw [ho, c2]; exact hval
      have ho4 : o.Sound := by rw [ho, c2]; exact hs
      have ho5 : o.delivered = p.out.delivered := by rw [ho, c2]; rfl
      have ho6 : o.pot = p.out.pot := by rw [ho, c2]
      have ho7 : o.efficiency = p.out.efficiency := by rw [ho, c2]
      have ho8 : o.conductance = p.out.conductance := by rw [ho, c2]
      obtain ⟨d1, d2⟩ := computePower_spec o ho4 ho1 ho3
      rw [ho5, ho6, ho7, ho8, ← c1] at d1
      have hne : p.out.efficiency ≠ 0 := (dblEps_pos.trans_le hs.2.1).ne'
      have d3 : o.computePower.1 = p.out.computePower.1 := mul_right_cancel₀ hne d1
      refine ⟨{ p.inp with
            voltage := p.inp.computeVoltage
            load := p.out.computePower.1
            powerValid := p.out.powerValid }, hon, rfl, hcv, rfl, rfl, hgi, ?_, ?_, ?_, ?_⟩
      · rw [hq]
        unfold Pair.outMinor
        dsimp only
        rw [ho1, if_neg Bool.false_ne_true, if_pos hlinked]
        have : o.ownPower.leads = false := by
          unfold Out.ownPower
          rw [d2]
          exact ho2
        rw [this]
        rfl
      all_goals
        rw [hq]
        unfold Pair.outMinor
        dsimp only
        rw [ho1, if_neg Bool.false_ne_true, if_pos hlinked]
        have hol : o.ownPower.leads = false := by
          unfold Out.ownPower
          rw [d2]
          exact ho2
        rw [hol, if_neg Bool.false_ne_true]
        dsimp only
      · rw [(contribute_keeps sq _).1]
        have : o.ownPower.pot = p.out.pot := by unfold Out.ownPower; rw [d2]; exact ho6
        split <;> exact this
      · rw [(contribute_keeps sq _).2.2]
        have : o.ownPower.ground = false := by unfold Out.ownPower; rw [d2]; exact ho1
        split <;> exact this
      · rw [(contribute_keeps sq _).2.1]
        have : o.ownPower.loss = p.out.computePower.1 - max 0 p.out.delivered * p.out.pot := by
          unfold Out.ownPower
          rw [d2, d3, ho5, ho6]
        split <;> exact this
    | false =>
      rw [hL, if_neg Bool.false_ne_true] at hq
      have hout : p.out.leads = true := by rw [hlead, hL]; rfl
      have hown : p.out.ownPower.leads = true := by unfold Out.ownPower; rw [c2]; exact hout
      have hip : p.out.ownPower.inputPower = p.out.computePower.1 := rfl
      obtain ⟨o, ho, hok⟩ : ∃ o : Out K, p.outMinor sq n = { p with
          inp := { p.inp with load := p.out.computePower.1 }
          out := o } ∧ o.pot = p.out.pot ∧ o.ground = false ∧
          o.loss = p.out.computePower.1 - max 0 p.out.delivered * p.out.pot := by
        unfold Pair.outMinor
        dsimp only
        rw [hgo, if_neg Bool.false_ne_true, if_pos hlinked, hown, if_pos rfl]
        dsimp only
        refine ⟨_, rfl, ?_, ?_, ?_⟩
        · rw [(contribute_keeps sq _).1]
          have : p.out.ownPower.pot = p.out.pot := by unfold Out.ownPower; rw [c2]
          split <;> exact this
        · rw [(contribute_keeps sq _).2.2]
          have : p.out.ownPower.ground = false := by unfold Out.ownPower; rw [c2]; exact hgo
          split <;> exact this
        · rw [(contribute_keeps sq _).2.1]
          have : p.out.ownPower.loss = p.out.computePower.1 - max 0 p.out.delivered * p.out.pot := by
            unfold Out.ownPower
            rw [c2]
          split <;> exact this
      rw [ho] at hq
      have h2 : q = { p with
          inp := ({ p.inp with
            load := p.out.computePower.1
            voltage := p.inp.computeVoltage
            powerValid := o.powerValid } : In K).contribute
          out := o } := by
        rw [hq]
        unfold Pair.inMinor
        dsimp only
        rw [hgi, if_neg Bool.false_ne_true, hlinked, if_pos rfl, hL, if_neg Bool.false_ne_true]
        rfl
      refine ⟨{ p.inp with
            load := p.out.computePower.1
            voltage := p.inp.computeVoltage
            powerValid := o.powerValid }, hon, rfl, hcv, rfl, rfl, hgi, ?_, ?_, ?_, ?_⟩
      · rw [h2]
      · rw [h2]; exact hok.1
      · rw [h2]; exact hok.2.1
      · rw [h2]; exact hok.2.2
  obtain ⟨i, k1, k2, k3, k4, k5, k6, k7, k8, k9, k10⟩ := key
  have hdl : q.out.delivered = p.out.delivered := by
    unfold Out.delivered
    rw [k8, show q.out.adm = p.out.adm from hadm, show q.out.source = p.out.source from hsrc]
  have hfo : q.out.flows.flux = max 0 p.out.delivered := by
    unfold Out.flows
    rw [k9, if_neg Bool.false_ne_true, computeFlux_eq]
    exact congrArg _ hdl
  have hfi : q.inp.flows.flux = i.contribute.drawn := by
    rw [k7]
    unfold In.flows
    have : i.contribute.ground = false := k6
    rw [this, if_neg Bool.false_ne_true]
    show i.contribute.pot * i.contribute.adm - i.contribute.source = _
    unfold In.drawn
    rw [mul_comm]
  have hip : q.inp.pot = i.pot := by rw [k7]; rfl
  obtain ⟨b1, -, -⟩ := c54_draws_load i k1 (by rw [k2]; exact hload) k3 (by rw [k4]; exact hv)
    (by rw [k5, k4]; exact huv)
  rw [hfi, hip, hfo, k8, k10, b1, k2, k7]
  ring

/-- The sample pair is in such a state: 50 W taken, 18 W given, 22 W and 10 W lost. -/
example : (samplePair.round noRoot 2).out.adm = samplePair.out.adm ∧
    (samplePair.round noRoot 2).out.source = samplePair.out.source ∧
    (samplePair.round noRoot 2).inp.flows.flux * 100 = 50 ∧
    (samplePair.round noRoot 2).out.flows.flux * 9 = 18 ∧
    (samplePair.round noRoot 2).out.loss = 22 ∧ (samplePair.round noRoot 2).inp.loss = 10 := by decide +kernel

/-! ## Changes of state in one major step -/

/-- C54: in one major step (any sequence of minor steps, solutions, polls and resets) the output rejects at most
`5 * flipsLimit + 6` solutions on its own account, and the input at most three. -/
theorem c54_rejections (sq : K → K) (p : Pair K) (es : List (Ev K)) :
    countCalls sq (OutRejects sq) p es ≤ 5 * p.out.flipsLimit + 6 ∧ countCalls sq InRejects p es ≤ 3 :=
  ⟨(count_le sq (OutRejects sq) (fun p => p.out.weight) (fun p e => (happen_weights sq p e).1) es p).trans
      (out_weight_le p.out),
    (count_le sq InRejects (fun p => p.inp.weight) (fun p e => (happen_weights sq p e).2) es p).trans
      (in_weight_le p.inp)⟩

open Classical in
/-- A sequence with a rejection: the regulator goes to reverse bias. -/
example : countCalls noRoot (OutRejects noRoot) samplePair
    [.inMinor, .outMinor 1, .pots 100 11, .inConfirm 1, .outConfirm 1] = 1 := by
  have h : OutRejects noRoot (happen noRoot (happen noRoot (happen noRoot (happen noRoot samplePair .inMinor)
      (.outMinor 1)) (.pots 100 11)) (.inConfirm 1)) (.outConfirm 1) := by
    constructor <;> decide +kernel
  simp only [countCalls]
  rw [if_pos h]
  simp [OutRejects]

end Gunns.Props
