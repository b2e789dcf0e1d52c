import Verif.Fluid.Accumulator
import Mathlib.Tactic.Linarith
import Mathlib.Tactic.FieldSimp
import Mathlib.Tactic.Ring
import Mathlib.Tactic.NormNum
import Mathlib.Tactic.Positivity

/-!
# C92: the spring accumulator

Over any commands and passes the bellows stays between its stops and agrees with the two volumes, and the conductance stays within its
limits.  A pass without commands moves exactly the mass it gives the network and does not overshoot the node's pressure for a linear
spring.
-/

namespace Gunns.Props

open Gunns Gunns.Accum Gunns.Interp

set_option linter.unusedSectionVars false

variable {K : Type*} [Field K] [LinearOrder K] [IsStrictOrderedRing K]

/-! ## Limits -/

private theorem lim_le {a x b : K} (h : a ≤ b) : limitRange a x b ≤ b := max_le (min_le_right _ _) h

private theorem le_lim (a x b : K) : a ≤ limitRange a x b := le_max_right _ _

private theorem lim_id {a x b : K} (h1 : a ≤ x) (h2 : x ≤ b) : limitRange a x b = x := by
  unfold limitRange; rw [min_eq_left h2, max_eq_left h1]

/-- Sizes of a valid configuration. -/
private theorem sizes (c : Accum.Config K) (p : K) (h : valid c p) :
    0 < c.minVol ∧ c.minVol < c.deadVol ∧ c.deadVol < c.volume / 2 ∧ 0 < c.range ∧ c.minVol < c.volume := by
  obtain ⟨-, -, -, h4, h5, h6, h7, h8, -⟩ := h
  have hv : 0 < c.volume := lt_trans fltEps_pos h4
  have e1 : 0 < c.minVol := by unfold Config.minVol; positivity
  have e2 : c.minVol < c.deadVol := by
    unfold Config.minVol Config.deadVol
    have := mul_lt_mul_of_pos_left h7 hv
    linarith
  have e3 : c.deadVol < c.volume / 2 := by
    unfold Config.deadVol
    have := mul_lt_mul_of_pos_left h8 hv
    linarith
  have e4 : c.minVol < c.volume := by linarith
  exact ⟨e1, e2, e3, by unfold Config.range; linarith, e4⟩

/-- The bellows is between its stops, and the liquid and the pressurizer have the volumes that go with its position. -/
def c92Bellows (c : Accum.Config K) (s : Accum.State K) : Prop :=
  0 ≤ s.pos ∧ s.pos ≤ 1 ∧ s.liquid = c.minVol + s.pos * c.range ∧ s.pressurizer = c.minVol + (1 - s.pos) * c.range

/-- The conductance is within its limits. -/
def c92Open (c : Accum.Config K) (s : Accum.State K) : Prop :=
  0 ≤ s.scale ∧ s.scale ≤ 1 ∧ 0 ≤ s.cond ∧ s.cond ≤ c.maxCond

/-- The temperature is within its limits. -/
def c92Mild (c : Accum.Config K) (s : Accum.State K) : Prop := c.minTemp ≤ s.temp ∧ s.temp ≤ c.maxTemp

private theorem pressurizer_eq (c : Accum.Config K) (v : K) (h1 : c.minVol ≤ v) (h2 : v ≤ c.volume) :
    pressurizerVolume c v = c.total - v := by
  unfold pressurizerVolume Config.total
  by_cases h3 : c.volume ≤ v
  · rw [if_pos h3]; linarith
  · rw [if_neg h3]
    by_cases h4 : v ≤ c.minVol
    · rw [if_pos h4]; linarith
    · rw [if_neg h4, lim_id] <;> linarith

private theorem derive_eq (c : Accum.Config K) (s : Accum.State K) (hr : 0 < c.range) (h0 : 0 ≤ s.pos) (h1 : s.pos ≤ 1) :
    deriveChamberVolumes c s = { s with
      liquid := c.minVol + s.pos * c.range
      pressurizer := c.minVol + (1 - s.pos) * c.range } := by
  have ha : 0 ≤ s.pos * c.range := mul_nonneg h0 hr.le
  have hb : s.pos * c.range ≤ c.range := mul_le_of_le_one_left hr.le h1
  have hR : c.range = c.volume - c.minVol := rfl
  have hl : limitRange c.minVol (s.pos * c.range + c.minVol) c.volume = c.minVol + s.pos * c.range := by
    rw [lim_id] <;> linarith
  unfold deriveChamberVolumes
  simp only
  rw [hl, pressurizer_eq c _ (by linarith) (by linarith)]
  congr 1
  unfold Config.total
  linarith

private theorem ramp_range {dt x t r : K} (h : 0 ≤ r * dt) (hx0 : 0 ≤ x) (hx1 : x ≤ 1) (ht0 : 0 ≤ t) (ht1 : t ≤ 1) :
    0 ≤ rampTo dt x t r ∧ rampTo dt x t r ≤ 1 := by
  unfold rampTo
  split
  · exact ⟨le_min (by linarith) ht0, (min_le_right _ _).trans ht1⟩
  · split
    · exact ⟨ht0.trans (le_max_right _ _), max_le (by linarith) ht1⟩
    · exact ⟨hx0, hx1⟩

/-! ## The parts of a pass -/

private theorem setScale_eq (c : Accum.Config K) (dt : K) (s : Accum.State K) :
    ∃ x y : K, setScale c dt s = { s with
      scale := x
      oneWay := y } := by
  unfold setScale
  split
  · exact ⟨_, _, rfl⟩
  split
  · exact ⟨_, _, rfl⟩
  split
  · split
    · split
      · exact ⟨_, _, rfl⟩
      split
      · exact ⟨_, _, rfl⟩
      · exact ⟨_, _, rfl⟩
    · split
      · exact ⟨_, _, rfl⟩
      split
      · exact ⟨_, _, rfl⟩
      · exact ⟨_, _, rfl⟩
  · split
    · exact ⟨_, _, rfl⟩
    split
    · exact ⟨_, _, rfl⟩
    split
    · exact ⟨_, _, rfl⟩
    · exact ⟨_, _, rfl⟩

private theorem setScale_range (c : Accum.Config K) (dt : K) (s : Accum.State K) (hm : 0 ≤ c.minScale) (hm1 : c.minScale ≤ 1)
    (h0 : 0 ≤ s.scale) (h1 : s.scale ≤ 1) : 0 ≤ (setScale c dt s).scale ∧ (setScale c dt s).scale ≤ 1 := by
  have hz : (0 : K) ≤ 0 ∧ (0 : K) ≤ 1 := ⟨le_refl _, zero_le_one⟩
  have he : 0 ≤ emptyScale c s ∧ emptyScale c s ≤ 1 := ⟨le_lim _ _ _, lim_le zero_le_one⟩
  have hf : 0 ≤ fullScale c s ∧ fullScale c s ≤ 1 := ⟨le_lim _ _ _, lim_le zero_le_one⟩
  have hw : 0 ≤ (oneWayRamp dt s).scale ∧ (oneWayRamp dt s).scale ≤ 1 := by
    unfold oneWayRamp
    apply ramp_range _ h0 h1 zero_le_one (le_refl _)
    by_cases h : 0 < dt
    · exact mul_nonneg (le_lim _ _ _) h.le
    · rw [if_neg h]
      have : limitRange 0 s.oneWay 0 = 0 := le_antisymm (lim_le (le_refl _)) (le_lim _ _ _)
      rw [this, zero_mul]
  unfold setScale
  split
  · exact hz
  split
  · exact ⟨zero_le_one, le_refl _⟩
  split
  · split
    · split
      · exact hf
      split
      · exact hz
      · exact hw
    · split
      · exact he
      split
      · exact hz
      · exact hw
  · split
    · exact he
    split
    · exact hf
    split
    · exact ⟨hm, hm1⟩
    · exact hz

private theorem step_eq (c : Accum.Config K) (f : Liquid K) (lim : K) (q : Accum.Pass K) (s : Accum.State K) :
    ∃ (a b x y g : K) (m : Mode) (z : Zone), Accum.step c f lim q s = { s with
      capacitance := a
      cond := b
      scale := x
      oneWay := y
      admittance := g
      mode := m
      zone := z } := by
  unfold Accum.step updateConductivity updateScale
  by_cases h : c.deadVol - c.minVol ≤ 0
  · rw [if_pos h]
    exact ⟨_, _, _, _, _, _, _, rfl⟩
  · rw [if_neg h]
    obtain ⟨x, y, h1⟩ := setScale_eq c q.dt { updateCapacitance c f s with
      mode := fillMode c (updateCapacitance c f s).press q.before
      zone := bellowsZone c (updateCapacitance c f s).liquid }
    rw [h1]
    exact ⟨_, _, _, _, _, _, _, rfl⟩

private theorem step_open (c : Accum.Config K) (f : Liquid K) (lim : K) (q : Accum.Pass K) (s : Accum.State K)
    (hc : 0 ≤ c.maxCond) (hm : 0 ≤ c.minScale) (hm1 : c.minScale ≤ 1) (h : c92Open c s) : c92Open c (Accum.step c f lim q s) := by
  have hx : 0 ≤ (updateScale c q (updateCapacitance c f s)).scale ∧ (updateScale c q (updateCapacitance c f s)).scale ≤ 1 := by
    unfold updateScale
    split
    · exact ⟨h.1, h.2.1⟩
    · exact setScale_range c q.dt _ hm hm1 h.1 h.2.1
  exact ⟨hx.1, hx.2, le_lim _ _ _, lim_le hc⟩

/-- What a force on the bellows leaves. -/
private theorem force_facts (c : Accum.Config K) (f : Liquid K) (q : Accum.Pass K) (p : K) (b : Bool) (s : Accum.State K)
    (hr : 0 < c.range) (h0 : 0 ≤ p) (h1 : p ≤ 1) (ht : c.minTemp ≤ c.maxTemp) :
    c92Bellows c (forceLiqChamber c f q p b s) ∧ (c92Open c s → c92Open c (forceLiqChamber c f q p b s)) ∧
      (c92Mild c s → c92Mild c (forceLiqChamber c f q p b s)) ∧ (forceLiqChamber c f q p b s).pos = p ∧
      (forceLiqChamber c f q p b s).timer = s.timer ∧ (forceLiqChamber c f q p b s).edit = s.edit := by
  have hd := derive_eq c { s with pos := p } hr h0 h1
  unfold forceLiqChamber
  simp only at hd
  rw [hd]
  cases b
  · exact ⟨⟨h0, h1, rfl, rfl⟩, fun h => h, fun h => h, rfl, rfl, rfl⟩
  · exact ⟨⟨h0, h1, rfl, rfl⟩, fun h => h, fun _ => ⟨le_lim _ _ _, lim_le ht⟩, rfl, rfl, rfl⟩

private theorem update_bellows (c : Accum.Config K) (f : Liquid K) (q : Accum.Pass K) (s : Accum.State K)
    (hr : 0 < c.range) (hb : c92Bellows c s) : c92Bellows c (updateLiqChamber c f q s) := by
  have hR : c.range = c.volume - c.minVol := rfl
  unfold updateLiqChamber
  by_cases hh : s.hold = true
  · rw [if_pos hh]; exact hb
  · rw [if_neg hh]
    obtain ⟨b1, b2, b3, b4⟩ := hb
    have ha : 0 ≤ s.pos * c.range := mul_nonneg b1 hr.le
    have hc : s.pos * c.range ≤ c.range := mul_le_of_le_one_left hr.le b2
    have key : ∀ v : K, c.minVol ≤ v → v ≤ c.volume →
        0 ≤ limitRange 0 ((v - c.minVol) / c.range) 1 ∧ limitRange 0 ((v - c.minVol) / c.range) 1 ≤ 1 ∧
        v = c.minVol + limitRange 0 ((v - c.minVol) / c.range) 1 * c.range ∧
        pressurizerVolume c v = c.minVol + (1 - limitRange 0 ((v - c.minVol) / c.range) 1) * c.range := by
      intro v v1 v2
      have e1 : 0 ≤ (v - c.minVol) / c.range := div_nonneg (by linarith) hr.le
      have e2 : (v - c.minVol) / c.range ≤ 1 := by rw [div_le_one hr]; linarith
      rw [lim_id e1 e2]
      have e3 : (v - c.minVol) / c.range * c.range = v - c.minVol := div_mul_cancel₀ _ hr.ne'
      refine ⟨e1, e2, by linarith, ?_⟩
      rw [pressurizer_eq c v v1 v2]
      unfold Config.total
      rw [sub_mul, e3]
      linarith
    simp only [c92Bellows]
    rw [if_pos hr]
    by_cases hp : 0 < (setTemp f (computeTemperature c f q s) s).density
    · rw [if_pos hp]
      exact key _ (le_lim _ _ _) (lim_le (by linarith))
    · rw [if_neg hp]
      have hl : (setTemp f (computeTemperature c f q s) s).liquid = s.liquid := rfl
      rw [hl]
      exact key _ (by linarith) (by linarith)

private theorem update_rest (c : Accum.Config K) (f : Liquid K) (q : Accum.Pass K) (s : Accum.State K)
    (ht : c.minTemp ≤ c.maxTemp) :
    (c92Open c s → c92Open c (updateLiqChamber c f q s)) ∧ (c92Mild c s → c92Mild c (updateLiqChamber c f q s)) := by
  unfold updateLiqChamber
  split
  · exact ⟨fun h => h, fun h => h⟩
  · exact ⟨fun h => h, fun _ => ⟨le_lim _ _ _, lim_le ht⟩⟩

private theorem ramp_pos (c : Accum.Config K) (dt x t r : K) (hdt : 0 ≤ dt) (h0 : 0 ≤ x) (h1 : x ≤ 1) :
    0 ≤ rampTo dt x (limitRange 0 t 1) (limitRange 0 r c.maxRate) ∧
      rampTo dt x (limitRange 0 t 1) (limitRange 0 r c.maxRate) ≤ 1 :=
  ramp_range (mul_nonneg (le_lim _ _ _) hdt) h0 h1 (le_lim _ _ _) (lim_le zero_le_one)

private theorem chamber_keeps (c : Accum.Config K) (f : Liquid K) (q : Accum.Pass K) (s : Accum.State K)
    (hr : 0 < c.range) (ht : c.minTemp ≤ c.maxTemp) (hdt : 0 ≤ q.dt) (hb : c92Bellows c s) :
    c92Bellows c (chamber c f q s) ∧ (c92Open c s → c92Open c (chamber c f q s)) ∧
      (c92Mild c s → c92Mild c (chamber c f q s)) := by
  unfold chamber
  split
  · exact ⟨hb, fun h => h, fun h => h⟩
  split
  · unfold failLiqChamber
    split
    · exact ⟨hb, fun h => h, fun h => h⟩
    · obtain ⟨r0, r1⟩ := ramp_pos c q.dt s.pos s.stickPos s.stickRate hdt hb.1 hb.2.1
      obtain ⟨f1, f2, f3, -⟩ := force_facts c f q _ true { resetEdits s with
        stickPos := limitRange 0 s.stickPos 1
        stickRate := limitRange 0 s.stickRate c.maxRate } hr r0 r1 ht
      exact ⟨f1, f2, f3⟩
  split
  · obtain ⟨r0, r1⟩ := ramp_pos c q.dt s.pos s.editPos s.editRate hdt hb.1 hb.2.1
    obtain ⟨f1, f2, f3, -⟩ := force_facts c f q _ s.reactive { s with
      editPos := limitRange 0 s.editPos 1
      editRate := limitRange 0 s.editRate c.maxRate } hr r0 r1 ht
    unfold editLiqChamber
    simp only
    split
    · split
      · exact ⟨f1, f2, f3⟩
      · exact ⟨f1, f2, f3⟩
    · exact ⟨f1, f2, f3⟩
  · obtain ⟨u1, u2⟩ := update_rest c f q { s with timer := 0 } ht
    exact ⟨update_bellows c f q { s with timer := 0 } hr hb, u1, u2⟩

private theorem editTemp_keeps (c : Accum.Config K) (f : Liquid K) (s : Accum.State K) (ht : c.minTemp ≤ c.maxTemp)
    (hb : c92Bellows c s) :
    c92Bellows c (editTemperature c f s) ∧ (c92Open c s → c92Open c (editTemperature c f s)) ∧
      (c92Mild c s → c92Mild c (editTemperature c f s)) := by
  unfold editTemperature
  split
  · exact ⟨hb, fun h => h, fun _ => ⟨le_lim _ _ _, lim_le ht⟩⟩
  · exact ⟨hb, fun h => h, fun h => h⟩

private theorem fluid_keeps (c : Accum.Config K) (f : Liquid K) (q : Accum.Pass K) (s : Accum.State K)
    (hr : 0 < c.range) (ht : c.minTemp ≤ c.maxTemp) (hdt : 0 ≤ q.dt) (hb : c92Bellows c s) :
    c92Bellows c (Accum.updateFluid c f q s) ∧ (c92Open c s → c92Open c (Accum.updateFluid c f q s)) ∧
      (c92Mild c s → c92Mild c (Accum.updateFluid c f q s)) := by
  unfold Accum.updateFluid
  obtain ⟨e1, e2, e3⟩ := editTemp_keeps c f { s with
    stuck := false
    flow := flowRate f s.flux } ht hb
  obtain ⟨g1, g2, g3⟩ := chamber_keeps c f q _ hr ht hdt e1
  exact ⟨g1, fun h => g2 (e2 h), fun h => g3 (e3 h)⟩

/-- Over any commands and passes with steps that are not negative the bellows is between its stops and agrees with the two volumes,
whose sum stays the same; scale and conductivity stay within their limits, and so does the temperature. -/
theorem c92_limits (c : Accum.Config K) (f : Liquid K) (lim p : K) (hv : valid c p) (es : List (Accum.Command K ⊕ Accum.Pass K))
    (hes : ∀ q, Sum.inr q ∈ es → 0 ≤ q.dt) (s : Accum.State K) (hb : c92Bellows c s) (ho : c92Open c s) :
    c92Bellows c (Accum.run c f lim es s) ∧ c92Open c (Accum.run c f lim es s) ∧
      c.minVol ≤ (Accum.run c f lim es s).liquid ∧ (Accum.run c f lim es s).liquid ≤ c.volume ∧
      (Accum.run c f lim es s).liquid + (Accum.run c f lim es s).pressurizer = c.volume + c.minVol ∧
      (c92Mild c s → c92Mild c (Accum.run c f lim es s)) := by
  obtain ⟨-, -, -, hr, -⟩ := sizes c p hv
  have hc : 0 ≤ c.maxCond := hv.1
  have hm : 0 ≤ c.minScale := dblEps_pos.le.trans hv.2.1
  have hm1 : c.minScale ≤ 1 := hv.2.2.1
  have ht : c.minTemp ≤ c.maxTemp := by
    obtain ⟨-, -, -, -, -, -, -, -, -, -, -, -, h, -⟩ := hv
    exact h.le
  have key : c92Bellows c (Accum.run c f lim es s) ∧ c92Open c (Accum.run c f lim es s) ∧
      (c92Mild c s → c92Mild c (Accum.run c f lim es s)) := by
    induction es generalizing s with
    | nil => exact ⟨hb, ho, fun h => h⟩
    | cons e es ih =>
      have hes' : ∀ q, Sum.inr q ∈ es → 0 ≤ q.dt := fun q hq => hes q (List.mem_cons_of_mem _ hq)
      cases e with
      | inl x =>
        unfold Accum.run
        have h1 : c92Bellows c (obey x s) ∧ c92Open c (obey x s) ∧ (c92Mild c s → c92Mild c (obey x s)) := by
          cases x <;> exact ⟨hb, ho, fun h => h⟩
        obtain ⟨i1, i2, i3⟩ := ih hes' (obey x s) h1.1 h1.2.1
        exact ⟨i1, i2, fun h => i3 (h1.2.2 h)⟩
      | inr q =>
        unfold Accum.run
        have hso := step_open c f lim q s hc hm hm1 ho
        obtain ⟨a, b, x, y, g, m, z, hs⟩ := step_eq c f lim q s
        have h1 : c92Bellows c (computeFlows q (Accum.step c f lim q s)) := by rw [hs]; exact hb
        have h2 : c92Mild c s → c92Mild c (computeFlows q (Accum.step c f lim q s)) := by rw [hs]; exact fun h => h
        obtain ⟨k1, k2, k3⟩ := fluid_keeps c f q _ hr ht (hes q List.mem_cons_self) h1
        obtain ⟨i1, i2, i3⟩ := ih hes' (Accum.pass c f lim q s) k1 (k2 hso)
        exact ⟨i1, i2, fun h => i3 (k3 (h2 h))⟩
  obtain ⟨k1, k2, k3⟩ := key
  obtain ⟨b1, b2, b3, b4⟩ := k1
  have ha := mul_nonneg b1 hr.le
  have hb' := mul_le_of_le_one_left hr.le b2
  have hR : c.range = c.volume - c.minVol := rfl
  refine ⟨⟨b1, b2, b3, b4⟩, k2, by linarith, by linarith, ?_, k3⟩
  rw [b3, b4, sub_mul]
  linarith

/-! ## A pass without commands -/

/-- No malfunction, edit, hold or override. -/
def c92Quiet (s : Accum.State K) : Prop :=
  s.stick = false ∧ s.stickTo = false ∧ s.edit = false ∧ s.editTemp = false ∧ s.hold = false ∧ s.oride = false

private theorem quiet_pass (c : Accum.Config K) (f : Liquid K) (lim : K) (q : Accum.Pass K) (s : Accum.State K) (h : c92Quiet s) :
    ∃ (a b x y g : K) (m : Mode) (z : Zone), Accum.pass c f lim q s = updatePressure c f q (updateLiqChamber c f q { s with
      capacitance := a
      cond := b
      scale := x
      oneWay := y
      admittance := g
      mode := m
      zone := z
      flux := (q.after - s.press) * g
      flow := flowRate f ((q.after - s.press) * g)
      stuck := false
      timer := 0 }) ∧ g = (Accum.step c f lim q s).admittance := by
  obtain ⟨a, b, x, y, g, m, z, hs⟩ := step_eq c f lim q s
  obtain ⟨h1, h2, h3, h4, h5, h6⟩ := h
  refine ⟨a, b, x, y, g, m, z, ?_, by rw [hs]⟩
  unfold Accum.pass
  rw [hs]
  unfold computeFlows Accum.updateFluid editTemperature
  simp only [h4]
  unfold chamber
  simp only [h1, h2, h3, h6]
  rfl

private theorem flowRate_eq (f : Liquid K) (x : K) : flowRate f x = x * f.weight := by
  unfold flowRate
  split
  · rfl
  split
  · rfl
  · have : x = 0 := by linarith
    rw [this, zero_mul]

private theorem moved_eq (s : Accum.State K) : transported s = if eps100 < |s.flow| then s.flow else 0 := by
  have he : (0 : K) < eps100 := by unfold eps100; have := dblEps_pos (K := K); linarith
  unfold transported
  by_cases h : eps100 < s.flow
  · rw [if_pos h, if_pos (lt_of_lt_of_le h (le_abs_self _))]
  · rw [if_neg h]
    by_cases h2 : s.flow < -eps100
    · rw [if_pos h2, if_pos (lt_of_lt_of_le (by linarith) (neg_le_abs _))]
    · rw [if_neg h2, if_neg]
      rw [not_lt, abs_le]
      constructor <;> linarith

/-- In a pass without commands the mass changes by what is taken from the node, unless that would leave next to nothing: then the
mass is `DBL_EPSILON`, whatever the node is given. -/
theorem c92_mass (c : Accum.Config K) (f : Liquid K) (lim : K) (q : Accum.Pass K) (s : Accum.State K) (h : c92Quiet s) :
    (Accum.pass c f lim q s).mass = max (s.mass + transported (Accum.pass c f lim q s) * q.dt) dblEps ∧
      (Accum.pass c f lim q s).flow = (q.after - s.press) * (Accum.step c f lim q s).admittance * f.weight := by
  obtain ⟨a, b, x, y, g, m, z, hp, hg⟩ := quiet_pass c f lim q s h
  rw [hp, ← hg, moved_eq]
  unfold updatePressure updateLiqChamber
  simp only [h.2.2.2.2.1]
  refine ⟨?_, flowRate_eq f _⟩
  simp only [Bool.false_eq_true, if_false, setTemp, massAfter]
  split
  · rfl
  · rw [zero_mul, add_zero]

/-- What several passes take from the node. -/
def c92taken (c : Accum.Config K) (f : Liquid K) (lim : K) : List (Accum.Pass K) → Accum.State K → K
  | [], _ => 0
  | q :: qs, s => transported (Accum.pass c f lim q s) * q.dt + c92taken c f lim qs (Accum.pass c f lim q s)

private theorem quiet_stays (c : Accum.Config K) (f : Liquid K) (lim : K) (q : Accum.Pass K) (s : Accum.State K) (h : c92Quiet s) :
    c92Quiet (Accum.pass c f lim q s) := by
  obtain ⟨a, b, x, y, g, m, z, hp, -⟩ := quiet_pass c f lim q s h
  rw [hp]
  unfold updatePressure updateLiqChamber c92Quiet
  simp only [h.2.2.2.2.1, Bool.false_eq_true, if_false, setTemp]
  exact ⟨h.1, h.2.1, h.2.2.1, h.2.2.2.1, trivial, h.2.2.2.2.2⟩

/-- Over any passes without commands the liquid gained is at least what was taken from the node, and exactly that as long as the
mass does not fall to `DBL_EPSILON`. -/
theorem c92_conserves (c : Accum.Config K) (f : Liquid K) (lim : K) (qs : List (Accum.Pass K)) (s : Accum.State K) (h : c92Quiet s) :
    s.mass + c92taken c f lim qs s ≤ (Accum.run c f lim (qs.map Sum.inr) s).mass ∧
      ((∀ n, 0 < n → n ≤ qs.length → dblEps < (Accum.run c f lim ((qs.take n).map Sum.inr) s).mass) →
        (Accum.run c f lim (qs.map Sum.inr) s).mass = s.mass + c92taken c f lim qs s) := by
  induction qs generalizing s with
  | nil =>
    have h1 : (Accum.run c f lim (([] : List (Accum.Pass K)).map Sum.inr) s).mass = s.mass := rfl
    have h2 : c92taken c f lim [] s = 0 := rfl
    rw [h1, h2, add_zero]
    exact ⟨le_refl _, fun _ => rfl⟩
  | cons q qs ih =>
    obtain ⟨i1, i2⟩ := ih _ (quiet_stays c f lim q s h)
    have hm := (c92_mass c f lim q s h).1
    have h1 : Accum.run c f lim ((q :: qs).map Sum.inr) s = Accum.run c f lim (qs.map Sum.inr) (Accum.pass c f lim q s) := rfl
    have h2 : c92taken c f lim (q :: qs) s
        = transported (Accum.pass c f lim q s) * q.dt + c92taken c f lim qs (Accum.pass c f lim q s) := rfl
    rw [h1, h2]
    constructor
    · have := le_max_left (s.mass + transported (Accum.pass c f lim q s) * q.dt) dblEps
      rw [← hm] at this
      linarith
    · intro hn
      have hq := hn 1 (by norm_num) (by simp)
      have h3 : Accum.run c f lim (((q :: qs).take 1).map Sum.inr) s = Accum.pass c f lim q s := rfl
      rw [h3, hm] at hq
      have hm' : (Accum.pass c f lim q s).mass = s.mass + transported (Accum.pass c f lim q s) * q.dt := by
        rw [hm]
        rcases max_choice (s.mass + transported (Accum.pass c f lim q s) * q.dt) dblEps with h4 | h4
        · exact h4
        · rw [h4] at hq
          exact absurd hq (lt_irrefl _)
      have := i2 (fun n n1 n2 => by
        have := hn (n + 1) (by omega) (by simp only [List.length_cons]; omega)
        exact this)
      rw [this, hm']
      ring

/-- The heat in the liquid changes by the housing's heat and by what the flow brings or takes, if the temperature limits are not met. -/
theorem c92_heat (c : Accum.Config K) (f : Liquid K) (lim : K) (q : Accum.Pass K) (s : Accum.State K) (h : c92Quiet s)
    (hT : s.holdTemp = false) (hf : ∀ x, f.enthalpy (f.temperature x) = x)
    (h1 : c.minTemp < (Accum.pass c f lim q s).temp) (h2 : (Accum.pass c f lim q s).temp < c.maxTemp) :
    (Accum.pass c f lim q s).mass * f.enthalpy (Accum.pass c f lim q s).temp
      = s.mass * f.enthalpy s.temp + (s.housing + transported (Accum.pass c f lim q s)
          * (if 0 < transported (Accum.pass c f lim q s) then q.enthalpy else f.enthalpy s.temp)) * q.dt := by
  obtain ⟨a, b, x, y, g, m, z, hp, -⟩ := quiet_pass c f lim q s h
  have he : (0 : K) < eps100 := by unfold eps100; have := dblEps_pos (K := K); linarith
  rw [hp] at h1 h2 ⊢
  unfold updatePressure updateLiqChamber at *
  simp only [h.2.2.2.2.1, Bool.false_eq_true, if_false, setTemp, transported] at *
  unfold computeTemperature at *
  simp only [hT, Bool.false_eq_true, if_false] at *
  generalize flowRate f ((q.after - s.press) * g) = w at *
  have hpos : 0 < massAfter q.dt w s.mass := lt_of_lt_of_le dblEps_pos (le_max_right _ _)
  rw [if_pos hpos] at *
  have hid : ∀ t : K, c.minTemp < limitRange c.minTemp t c.maxTemp → limitRange c.minTemp t c.maxTemp < c.maxTemp →
      limitRange c.minTemp t c.maxTemp = t := by
    intro t a1 a2
    unfold limitRange at *
    rcases max_choice (min t c.maxTemp) c.minTemp with e | e
    · rw [e] at a2 ⊢
      rcases min_choice t c.maxTemp with e' | e'
      · exact e'
      · rw [e'] at a2; exact absurd a2 (lt_irrefl _)
    · rw [e] at a1; exact absurd a1 (lt_irrefl _)
  rw [hid _ h1 h2, hf, mul_div_cancel₀ _ hpos.ne']
  by_cases e1 : eps100 < w
  · have e2 : ¬ w < -eps100 := by linarith
    have e3 : 0 < w := by linarith
    rw [if_neg e2, if_pos e1, if_pos e1, if_pos e3]
  · by_cases e2 : w < -eps100
    · have e3 : ¬ 0 < w := by linarith
      rw [if_pos e2, if_neg e1, if_pos e2, if_neg e3]
    · rw [if_neg e2, if_neg e1, if_neg e1, if_neg e2, if_neg (lt_irrefl _), zero_mul]

/-! ## The conductance -/

private theorem closed_of_scale (c : Accum.Config K) (f : Liquid K) (lim : K) (q : Accum.Pass K) (s : Accum.State K)
    (hc : 0 ≤ c.maxCond) (hl : 0 ≤ lim) (h : (updateScale c q (updateCapacitance c f s)).scale = 0) :
    (Accum.step c f lim q s).admittance = 0 ∧ (computeFlows q (Accum.step c f lim q s)).flux = 0 := by
  have : (Accum.step c f lim q s).admittance = 0 := by
    unfold Accum.step updateConductivity
    simp only
    rw [h, zero_mul, lim_id (le_refl _) hc, lim_id (le_refl _) hl]
  refine ⟨this, ?_⟩
  unfold computeFlows
  simp only
  rw [this, mul_zero]

/-- A stuck bellows, an empty one that the node's pressure before the solution does not fill and a full one that it does not drain
let nothing through. -/
theorem c92_closed (c : Accum.Config K) (f : Liquid K) (lim p : K) (hv : valid c p) (hl : 0 ≤ lim) (q : Accum.Pass K)
    (s : Accum.State K)
    (h : s.stuck = true ∨ (s.edit = false ∧ s.oride = false ∧
      ((s.liquid ≤ c.minVol ∧ q.before - s.press ≤ c.threshold) ∨
        (c.volume ≤ s.liquid ∧ s.press - q.before ≤ c.threshold)))) :
    (Accum.step c f lim q s).admittance = 0 ∧ (computeFlows q (Accum.step c f lim q s)).flux = 0 := by
  obtain ⟨z1, z2, z3, z4, z5⟩ := sizes c p hv
  apply closed_of_scale c f lim q s hv.1 hl
  unfold updateScale
  rw [if_neg (by linarith)]
  unfold setScale
  rcases h with h | ⟨he, ho, h⟩
  · have : (updateCapacitance c f s).stuck = true := h
    simp only [this, if_true]
  · have e1 : (updateCapacitance c f s).edit = false := he
    have e2 : (updateCapacitance c f s).oride = false := ho
    have e3 : (updateCapacitance c f s).liquid = s.liquid := rfl
    have e4 : (updateCapacitance c f s).press = s.press := rfl
    simp only [e1, e2, e3, e4]
    by_cases hs : (updateCapacitance c f s).stuck = true
    · simp only [hs, if_true]
    · rw [if_neg hs]
      rcases h with ⟨h1, h2⟩ | ⟨h1, h2⟩
      · have hz : bellowsZone c s.liquid = .empty := by unfold bellowsZone; rw [if_pos h1]
        have hm : fillMode c s.press q.before ≠ .filling := by
          unfold fillMode
          rw [if_neg (not_lt.2 h2)]
          split <;> simp
        rw [hz]
        simp [hm]
      · have hz : bellowsZone c s.liquid = .full := by
          unfold bellowsZone; rw [if_neg (not_le.2 (by linarith)), if_pos h1]
        rw [hz]
        by_cases hm : fillMode c s.press q.before = .filling
        · simp [hm]
        · have hm2 : fillMode c s.press q.before = .equalized := by
            unfold fillMode at hm ⊢
            split
            · rename_i h3
              rw [if_pos h3] at hm
              exact absurd rfl hm
            · rw [if_neg (not_lt.2 h2)]
          simp [hm2]

/-- In the middle, or during an edit, the bellows is wide open: the conductivity is the capacitance over the step, limited. -/
theorem c92_open (c : Accum.Config K) (f : Liquid K) (lim p : K) (hv : valid c p) (q : Accum.Pass K) (s : Accum.State K)
    (hs : s.stuck = false) (hd : dblEps < q.dt)
    (h : s.edit = true ∨ (c.deadVol ≤ s.liquid ∧ s.liquid ≤ c.volume - (c.deadVol - c.minVol))) :
    (Accum.step c f lim q s).scale = 1 ∧
      (Accum.step c f lim q s).cond = limitRange 0 ((Accum.step c f lim q s).capacitance / q.dt) c.maxCond := by
  obtain ⟨z1, z2, z3, z4, z5⟩ := sizes c p hv
  have hx : updateScale c q (updateCapacitance c f s) = { updateCapacitance c f s with
      mode := fillMode c s.press q.before
      zone := bellowsZone c s.liquid
      scale := 1 } := by
    unfold updateScale
    rw [if_neg (by linarith)]
    unfold setScale
    have e0 : (updateCapacitance c f s).stuck = false := hs
    have e1 : (updateCapacitance c f s).edit = s.edit := rfl
    have e3 : (updateCapacitance c f s).liquid = s.liquid := rfl
    have e4 : (updateCapacitance c f s).press = s.press := rfl
    simp only [e0, e1, e3, e4, Bool.false_eq_true, if_false]
    rw [if_pos]
    rcases h with h | ⟨h1, h2⟩
    · exact Or.inr (Or.inr h)
    · left
      unfold bellowsZone
      rw [if_neg (not_le.2 (by linarith)), if_neg (not_le.2 (by linarith)), if_neg (not_lt.2 h1), if_neg (not_lt.2 h2)]
  unfold Accum.step updateConductivity
  rw [hx]
  refine ⟨rfl, ?_⟩
  simp only
  unfold computeConductivity
  rw [if_pos hd, one_mul, lim_id (le_lim _ _ _) (lim_le hv.1)]

private theorem admittance_le (c : Accum.Config K) (f : Liquid K) (lim p : K) (hv : valid c p) (q : Accum.Pass K)
    (s : Accum.State K) (ho : c92Open c s) (hd : dblEps < q.dt) (hcap : 0 ≤ (Accum.step c f lim q s).capacitance) :
    0 ≤ (Accum.step c f lim q s).admittance ∧
      (Accum.step c f lim q s).admittance ≤ (Accum.step c f lim q s).capacitance / q.dt := by
  have hdt : 0 < q.dt := lt_trans dblEps_pos hd
  have hm : 0 ≤ c.minScale := dblEps_pos.le.trans hv.2.1
  have hso := step_open c f lim q s hv.1 hm hv.2.2.1 ho
  refine ⟨le_lim _ _ _, ?_⟩
  have h1 : (Accum.step c f lim q s).admittance ≤ (Accum.step c f lim q s).cond := by
    unfold Accum.step
    simp only
    exact max_le (min_le_left _ _) (le_lim _ _ _)
  refine h1.trans ?_
  have hk : 0 ≤ (Accum.step c f lim q s).capacitance / q.dt := div_nonneg hcap hdt.le
  have h2 : (Accum.step c f lim q s).cond = limitRange 0 ((Accum.step c f lim q s).scale *
      limitRange 0 ((Accum.step c f lim q s).capacitance / q.dt) c.maxCond) c.maxCond := by
    unfold Accum.step updateConductivity
    simp only
    unfold computeConductivity
    rw [if_pos hd]
  rw [h2]
  refine max_le ((min_le_left _ _).trans ?_) hk
  have h3 : limitRange 0 ((Accum.step c f lim q s).capacitance / q.dt) c.maxCond ≤ (Accum.step c f lim q s).capacitance / q.dt :=
    max_le (min_le_left _ _) hk
  have h4 : 0 ≤ limitRange 0 ((Accum.step c f lim q s).capacitance / q.dt) c.maxCond := le_lim _ _ _
  calc _ ≤ 1 * limitRange 0 ((Accum.step c f lim q s).capacitance / q.dt) c.maxCond :=
        mul_le_mul_of_nonneg_right hso.2.1 h4
    _ ≤ _ := by rw [one_mul]; exact h3

/-- With a linear spring, liquid of one density and no limit met, a pass without commands brings the pressure towards that of the node
and not beyond. -/
theorem c92_no_overshoot (c : Accum.Config K) (f : Liquid K) (lim p : K) (hv : valid c p) (q : Accum.Pass K)
    (s : Accum.State K) (h : c92Quiet s) (hb : c92Bellows c s) (ho : c92Open c s) (hd : dblEps < q.dt) (ρ : K) (hρ : 0 < ρ)
    (hf : ∀ t x, f.density t x = ρ) (hden : s.density = ρ) (hw : 0 < f.weight) (h2 : s.spring2 = 0) (h1 : dblEps < s.spring1)
    (h0 : s.head = 0) (hm : s.mass = s.liquid * ρ) (hp : s.press = s.pos * s.spring1 + s.spring0 + q.gas)
    (n1 : dblEps ≤ s.mass + transported (Accum.pass c f lim q s) * q.dt)
    (n2 : c.minVol * ρ ≤ (Accum.pass c f lim q s).mass) (n3 : (Accum.pass c f lim q s).mass ≤ c.volume * ρ)
    (n4 : dblEps ≤ (Accum.pass c f lim q s).pos * s.spring1 + s.spring0 + q.gas)
    (n5 : (Accum.pass c f lim q s).pos * s.spring1 + s.spring0 + q.gas ≤ c.maxPress) :
    ∃ θ, 0 ≤ θ ∧ θ ≤ 1 ∧ (Accum.pass c f lim q s).press = s.press + θ * (q.after - s.press) := by
  obtain ⟨z1, z2, z3, z4, z5⟩ := sizes c p hv
  have hdt : 0 < q.dt := lt_trans dblEps_pos hd
  obtain ⟨hmass, hflow⟩ := c92_mass c f lim q s h
  rw [max_eq_left n1] at hmass
  have hcap : (Accum.step c f lim q s).capacitance = 1 / s.spring1 * c.range * ρ / f.weight := by
    have e : (Accum.step c f lim q s).capacitance = (updateCapacitance c f s).capacitance := by
      unfold Accum.step updateConductivity updateScale
      simp only
      split
      · rfl
      · obtain ⟨x, y, h1⟩ := setScale_eq c q.dt { updateCapacitance c f s with
          mode := fillMode c (updateCapacitance c f s).press q.before
          zone := bellowsZone c (updateCapacitance c f s).liquid }
        rw [h1]
    rw [e]
    unfold updateCapacitance
    simp only
    rw [h2, h0, zero_div, mul_zero, zero_add, add_zero, if_pos h1, hden]
  have hs1 : 0 < s.spring1 := lt_trans dblEps_pos h1
  have hcpos : 0 < (Accum.step c f lim q s).capacitance := by rw [hcap]; positivity
  obtain ⟨g0, g1⟩ := admittance_le c f lim p hv q s ho hd hcpos.le
  -- the position and the pressure after the pass
  obtain ⟨a, b, x, y, g, m, z, hpp, hg⟩ := quiet_pass c f lim q s h
  have hpos : (Accum.pass c f lim q s).pos = ((Accum.pass c f lim q s).mass / ρ - c.minVol) / c.range := by
    have hm1 : c.minVol ≤ (Accum.pass c f lim q s).mass / ρ := by rw [le_div_iff₀ hρ]; exact n2
    have hm2 : (Accum.pass c f lim q s).mass / ρ ≤ c.volume := by rw [div_le_iff₀ hρ]; exact n3
    have e1 : 0 ≤ ((Accum.pass c f lim q s).mass / ρ - c.minVol) / c.range := div_nonneg (by linarith) z4.le
    have e2 : ((Accum.pass c f lim q s).mass / ρ - c.minVol) / c.range ≤ 1 := by
      rw [div_le_one z4]; unfold Config.range; linarith
    have e3 : (Accum.pass c f lim q s).pos = limitRange 0
        ((limitRange c.minVol ((Accum.pass c f lim q s).mass / ρ) c.volume - c.minVol) / c.range) 1 := by
      rw [hpp]
      unfold updatePressure updateLiqChamber
      simp only [h.2.2.2.2.1, Bool.false_eq_true, if_false, setTemp, hf, if_pos hρ, if_pos z4]
    rw [e3, lim_id hm1 hm2, lim_id e1 e2]
  have hpress : (Accum.pass c f lim q s).press = (Accum.pass c f lim q s).pos * s.spring1 + s.spring0 + q.gas := by
    have e3 : (Accum.pass c f lim q s).press = limitRange dblEps
        ((Accum.pass c f lim q s).pos * s.spring1 + s.spring0 + q.gas) c.maxPress := by
      rw [hpp]
      unfold updatePressure updateLiqChamber springPressure
      simp only [h.2.2.2.2.1, Bool.false_eq_true, if_false, setTemp, h2, h0]
      congr 1
      ring
    rw [e3, lim_id n4 n5]
  have hflow' : transported (Accum.pass c f lim q s) = 0 ∨ transported (Accum.pass c f lim q s)
      = (q.after - s.press) * (Accum.step c f lim q s).admittance * f.weight := by
    rw [moved_eq, hflow]
    split
    · right; rfl
    · left; rfl
  have hliq : s.mass / ρ = c.minVol + s.pos * c.range := by rw [hm, mul_div_cancel_right₀ _ hρ.ne', hb.2.2.1]
  have hΔ : (Accum.pass c f lim q s).press
      = s.press + transported (Accum.pass c f lim q s) * q.dt / ρ / c.range * s.spring1 := by
    rw [hpress, hpos, hmass, hp, add_div, hliq]
    field_simp
    ring
  rcases hflow' with e | e
  · exact ⟨0, le_refl _, zero_le_one, by rw [hΔ, e]; ring⟩
  · refine ⟨(Accum.step c f lim q s).admittance / ((Accum.step c f lim q s).capacitance / q.dt), ?_, ?_, ?_⟩
    · exact div_nonneg g0 (div_nonneg hcpos.le hdt.le)
    · rw [div_le_one (div_pos hcpos hdt)]; exact g1
    · rw [hΔ, e, hcap]
      field_simp

/-- After every pass the pressure is that of the spring at the bellows' position, the head and the gas, within its limits. -/
theorem c92_pressure (c : Accum.Config K) (f : Liquid K) (lim p : K) (hv : valid c p) (q : Accum.Pass K) (s : Accum.State K) :
    (Accum.pass c f lim q s).press = max (min ((Accum.pass c f lim q s).pos ^ 2 * (Accum.pass c f lim q s).spring2
      + (Accum.pass c f lim q s).pos * (Accum.pass c f lim q s).spring1 + (Accum.pass c f lim q s).spring0
      + (Accum.pass c f lim q s).head + q.gas) c.maxPress) dblEps ∧
      dblEps ≤ (Accum.pass c f lim q s).press ∧ (Accum.pass c f lim q s).press ≤ c.maxPress := by
  have hm : dblEps ≤ c.maxPress := by
    obtain ⟨-, -, -, -, -, -, -, -, -, -, -, -, -, h⟩ := hv
    linarith [h.1]
  refine ⟨?_, le_lim _ _ _, lim_le hm⟩
  unfold Accum.pass Accum.updateFluid updatePressure springPressure limitRange
  simp only
  congr 2
  ring

/-! ## Malfunctions and edits -/

/-- A stuck bellows moves neither bellows nor mass in any passes, and lets nothing through from the second pass on. -/
theorem c92_stuck (c : Accum.Config K) (f : Liquid K) (lim p : K) (hv : valid c p) (hl : 0 ≤ lim) (qs : List (Accum.Pass K))
    (s : Accum.State K) (hst : s.stick = true) (he : s.editTemp = false) (ho : s.oride = false) :
    (Accum.run c f lim (qs.map Sum.inr) s).pos = s.pos ∧ (Accum.run c f lim (qs.map Sum.inr) s).liquid = s.liquid ∧
      (Accum.run c f lim (qs.map Sum.inr) s).mass = s.mass ∧ (Accum.run c f lim (qs.map Sum.inr) s).temp = s.temp ∧
      (s.stuck = true → c92taken c f lim qs s = 0) ∧
      ∀ q, (Accum.pass c f lim q s).stuck = true := by
  have hone : ∀ (q : Accum.Pass K) (s : Accum.State K), s.stick = true → s.editTemp = false → s.oride = false →
      ∃ (a b x y g pr de : K) (m : Mode) (z : Zone), Accum.pass c f lim q s = { s with
        capacitance := a
        cond := b
        scale := x
        oneWay := y
        admittance := g
        mode := m
        zone := z
        flux := (q.after - s.press) * g
        flow := flowRate f ((q.after - s.press) * g)
        press := pr
        density := de
        edit := false
        timer := 0
        editTemp := false
        stuck := true } ∧ g = (Accum.step c f lim q s).admittance := by
    intro q s h1 h2 h3
    obtain ⟨a, b, x, y, g, m, z, hs⟩ := step_eq c f lim q s
    refine ⟨a, b, x, y, g, limitRange dblEps (springPressure s + s.head + q.gas) c.maxPress,
      f.density s.temp (limitRange dblEps (springPressure s + s.head + q.gas) c.maxPress), m, z, ?_, by rw [hs]⟩
    unfold Accum.pass
    rw [hs]
    unfold computeFlows Accum.updateFluid editTemperature
    simp only [h2, Bool.false_eq_true, if_false]
    unfold chamber failLiqChamber resetEdits updatePressure springPressure
    simp only [h1, h3, Bool.false_eq_true, if_false, true_or, if_true]
  have hstuck : ∀ q, (Accum.pass c f lim q s).stuck = true := by
    intro q
    obtain ⟨a, b, x, y, g, pr, de, m, z, hp, -⟩ := hone q s hst he ho
    rw [hp]
  have key : ∀ (qs : List (Accum.Pass K)) (s : Accum.State K), s.stick = true → s.editTemp = false → s.oride = false →
      (Accum.run c f lim (qs.map Sum.inr) s).pos = s.pos ∧ (Accum.run c f lim (qs.map Sum.inr) s).liquid = s.liquid ∧
      (Accum.run c f lim (qs.map Sum.inr) s).mass = s.mass ∧ (Accum.run c f lim (qs.map Sum.inr) s).temp = s.temp ∧
      (s.stuck = true → c92taken c f lim qs s = 0) := by
    intro qs
    induction qs with
    | nil => intro s _ _ _; exact ⟨rfl, rfl, rfl, rfl, fun _ => rfl⟩
    | cons q qs ih =>
      intro s h1 h2 h3
      obtain ⟨a, b, x, y, g, pr, de, m, z, hp, hg⟩ := hone q s h1 h2 h3
      have hr : Accum.run c f lim ((q :: qs).map Sum.inr) s = Accum.run c f lim (qs.map Sum.inr) (Accum.pass c f lim q s) := rfl
      have ht : c92taken c f lim (q :: qs) s
          = transported (Accum.pass c f lim q s) * q.dt + c92taken c f lim qs (Accum.pass c f lim q s) := rfl
      obtain ⟨i1, i2, i3, i4, i5⟩ := ih (Accum.pass c f lim q s) (by rw [hp]; exact h1) (by rw [hp]) (by rw [hp]; exact h3)
      rw [hr, i1, i2, i3, i4]
      refine ⟨by rw [hp], by rw [hp], by rw [hp], by rw [hp], ?_⟩
      intro hs
      rw [ht, i5 (by rw [hp])]
      have hz := (c92_closed c f lim p hv hl q s (Or.inl hs)).1
      have hm : transported (Accum.pass c f lim q s) = 0 := by
        rw [moved_eq, hp]
        simp only [hg, hz, mul_zero, flowRate_eq, zero_mul, ite_self]
      rw [hm]
      ring
  obtain ⟨k1, k2, k3, k4, k5⟩ := key qs s hst he ho
  exact ⟨k1, k2, k3, k4, k5, hstuck⟩

/-- The distance to the target of a ramp falls by the rate over the step, to none. -/
theorem c92_ramp (dt x t r : K) (h : 0 ≤ r * dt) : |rampTo dt x t r - t| = max (|x - t| - r * dt) 0 := by
  unfold rampTo
  by_cases h1 : x < t
  · rw [if_pos h1, abs_of_neg (by linarith : x - t < 0)]
    by_cases h2 : x + r * dt ≤ t
    · rw [min_eq_left h2, abs_of_nonpos (by linarith), max_eq_left (by linarith)]
      ring
    · rw [min_eq_right (by linarith), sub_self, abs_zero, max_eq_right (by linarith)]
  · rw [if_neg h1]
    by_cases h2 : t < x
    · rw [if_pos h2, abs_of_pos (by linarith : 0 < x - t)]
      by_cases h3 : t ≤ x - r * dt
      · rw [max_eq_left h3, abs_of_nonneg (by linarith), max_eq_left (by linarith)]
        ring
      · rw [max_eq_right (by linarith), sub_self, abs_zero, max_eq_right (by linarith)]
    · have : x = t := le_antisymm (not_lt.1 h2) (not_lt.1 h1)
      rw [if_neg h2, this, sub_self, abs_zero, max_eq_right (by linarith)]

/-- An edit brings the bellows towards the position that is asked for, limited to the stops, at the rate that is asked for, limited;
and it ends when the position is reached and the timer has run. -/
theorem c92_edit (c : Accum.Config K) (f : Liquid K) (q : Accum.Pass K) (s : Accum.State K) (p : K) (hv : valid c p)
    (hdt : 0 ≤ q.dt) (hb : c92Bellows c s) :
    |(editLiqChamber c f q s).pos - limitRange 0 s.editPos 1|
        = max (|s.pos - limitRange 0 s.editPos 1| - limitRange 0 s.editRate c.maxRate * q.dt) 0 ∧
      (s.edit = true → ((editLiqChamber c f q s).edit = false ↔
        (editLiqChamber c f q s).pos = limitRange 0 s.editPos 1 ∧ c.holdTime ≤ s.timer)) ∧
      (editLiqChamber c f q s).mass = max ((editLiqChamber c f q s).liquid *
        (if s.reactive then s.density else f.density s.temp s.press)) dblEps := by
  obtain ⟨-, -, -, hr, -⟩ := sizes c p hv
  have ht : c.minTemp ≤ c.maxTemp := by
    obtain ⟨-, -, -, -, -, -, -, -, -, -, -, -, h, -⟩ := hv
    exact h.le
  obtain ⟨r0, r1⟩ := ramp_pos c q.dt s.pos s.editPos s.editRate hdt hb.1 hb.2.1
  obtain ⟨-, -, -, f4, f5, f6⟩ := force_facts c f q _ s.reactive { s with
      editPos := limitRange 0 s.editPos 1
      editRate := limitRange 0 s.editRate c.maxRate } hr r0 r1 ht
  have hpos : (editLiqChamber c f q s).pos
      = rampTo q.dt s.pos (limitRange 0 s.editPos 1) (limitRange 0 s.editRate c.maxRate) := by
    unfold editLiqChamber
    simp only
    split
    · split <;> exact f4
    · exact f4
  refine ⟨?_, ?_, ?_⟩
  · rw [hpos]
    exact c92_ramp _ _ _ _ (mul_nonneg (le_lim _ _ _) hdt)
  · intro hed
    rw [hpos]
    unfold editLiqChamber
    simp only
    by_cases h1 : limitRange 0 s.editPos 1 = rampTo q.dt s.pos (limitRange 0 s.editPos 1) (limitRange 0 s.editRate c.maxRate)
    · rw [if_pos h1]
      by_cases h2 : s.timer < c.holdTime
      · rw [if_pos (by rw [f5]; exact h2)]
        have h3 : (forceLiqChamber c f q (rampTo q.dt s.pos (limitRange 0 s.editPos 1) (limitRange 0 s.editRate c.maxRate))
          s.reactive { s with
            editPos := limitRange 0 s.editPos 1
            editRate := limitRange 0 s.editRate c.maxRate }).edit = true := by rw [f6]; exact hed
        simp only [h3]
        constructor
        · intro h; exact absurd h (by simp)
        · rintro ⟨-, h⟩; exact absurd h (not_le.2 h2)
      · rw [if_neg (by rw [f5]; exact h2)]
        exact ⟨fun _ => ⟨h1.symm, not_lt.1 h2⟩, fun _ => rfl⟩
    · rw [if_neg h1, f6]
      simp only [hed]
      constructor
      · intro h; exact absurd h (by simp)
      · rintro ⟨h, -⟩; exact absurd h.symm h1
  · have hm : ∀ b : Bool, (forceLiqChamber c f q
        (rampTo q.dt s.pos (limitRange 0 s.editPos 1) (limitRange 0 s.editRate c.maxRate)) b { s with
            editPos := limitRange 0 s.editPos 1
            editRate := limitRange 0 s.editRate c.maxRate }).mass
        = max ((forceLiqChamber c f q
          (rampTo q.dt s.pos (limitRange 0 s.editPos 1) (limitRange 0 s.editRate c.maxRate)) b { s with
            editPos := limitRange 0 s.editPos 1
            editRate := limitRange 0 s.editRate c.maxRate }).liquid * (if b then s.density else f.density s.temp s.press)) dblEps := by
      intro b
      cases b <;> rfl
    unfold editLiqChamber
    simp only
    split
    · split <;> exact hm _
    · exact hm _

/-- The one-way rate never grows, and a pass of no step that ramps the scale takes it away for good. -/
theorem c92_one_way (dt : K) (s : Accum.State K) (h : 0 ≤ s.oneWay) :
    (oneWayRamp dt s).oneWay ≤ s.oneWay ∧ (dt ≤ 0 → (oneWayRamp dt s).oneWay = 0) ∧
      (0 < dt → (oneWayRamp dt s).oneWay ≤ 1 / dt) ∧
      (s.oneWay = 0 → (oneWayRamp dt s).scale = s.scale ∨ s.scale > 1) := by
  unfold oneWayRamp
  refine ⟨max_le (min_le_left _ _) h, fun h1 => ?_, fun h1 => ?_, fun h1 => ?_⟩
  · simp only
    rw [if_neg (not_lt.2 h1)]
    exact le_antisymm (lim_le (le_refl _)) (le_lim _ _ _)
  · simp only
    rw [if_pos h1]
    exact lim_le (by positivity)
  · simp only
    have h2 : ∀ u : K, 0 ≤ u → limitRange 0 s.oneWay u = 0 := fun u hu => by
      rw [h1]; exact lim_id (le_refl _) hu
    have h3 : (0 : K) ≤ if 0 < dt then 1 / dt else 0 := by
      split
      · positivity
      · exact le_refl _
    rw [h2 _ h3]
    unfold rampTo
    by_cases h4 : s.scale < 1
    · left
      rw [if_pos h4, zero_mul, add_zero, min_eq_left h4.le]
    · by_cases h5 : 1 < s.scale
      · right; exact h5
      · left
        rw [if_neg h4, if_neg h5]

/-! ## Cases -/
/-! ## Edits, failures and the dead bands -/

/-- A held temperature stays, within its limits. -/
theorem c92_held_temp (c : Accum.Config K) (f : Liquid K) (lim : K) (q : Accum.Pass K) (s : Accum.State K) (h : c92Quiet s)
    (hT : s.holdTemp = true) (h1 : c.minTemp ≤ s.temp) (h2 : s.temp ≤ c.maxTemp) : (Accum.pass c f lim q s).temp = s.temp := by
  obtain ⟨a, b, x, y, g, m, z, hp, -⟩ := quiet_pass c f lim q s h
  rw [hp]
  unfold updatePressure updateLiqChamber
  simp only [h.2.2.2.2.1, Bool.false_eq_true, if_false, setTemp, computeTemperature, hT, if_true]
  exact lim_id h1 h2

/-- While an edited bellows is held at its position the timer runs. -/
theorem c92_timer (c : Accum.Config K) (f : Liquid K) (q : Accum.Pass K) (s : Accum.State K) (p : K) (hv : valid c p)
    (hdt : 0 ≤ q.dt) (hb : c92Bellows c s) (he : s.edit = true)
    (ha : (editLiqChamber c f q s).pos = limitRange 0 s.editPos 1) (ht : s.timer < c.holdTime) :
    (editLiqChamber c f q s).timer = s.timer + q.dt ∧ (editLiqChamber c f q s).edit = true := by
  obtain ⟨-, -, -, hr, -⟩ := sizes c p hv
  have hmt : c.minTemp ≤ c.maxTemp := by
    obtain ⟨-, -, -, -, -, -, -, -, -, -, -, -, h, -⟩ := hv
    exact h.le
  obtain ⟨b1, b2, -⟩ := id hb
  obtain ⟨r0, r1⟩ := ramp_pos c q.dt s.pos s.editPos s.editRate hdt b1 b2
  obtain ⟨-, -, -, k1, k2, k3⟩ := force_facts c f q
    (rampTo q.dt s.pos (limitRange 0 s.editPos 1) (limitRange 0 s.editRate c.maxRate)) s.reactive
    { s with
      editPos := limitRange 0 s.editPos 1
      editRate := limitRange 0 s.editRate c.maxRate } hr r0 r1 hmt
  unfold editLiqChamber at ha ⊢
  simp only at ha k1 k2 k3 ⊢
  rw [k2] at ha ⊢
  by_cases hx : limitRange 0 s.editPos 1 = rampTo q.dt s.pos (limitRange 0 s.editPos 1) (limitRange 0 s.editRate c.maxRate)
  · rw [if_pos hx, if_pos ht]
    exact ⟨rfl, k3.trans he⟩
  · rw [if_neg hx, k1] at ha
    exact absurd ha.symm hx

/-- A bellows that fails to a position moves there at its rate and is stuck when it is there. -/
theorem c92_stick_to (c : Accum.Config K) (f : Liquid K) (q : Accum.Pass K) (s : Accum.State K) (p : K) (hv : valid c p)
    (hdt : 0 ≤ q.dt) (hb : c92Bellows c s) (hs : s.stick = false) :
    |(failLiqChamber c f q s).pos - limitRange 0 s.stickPos 1|
        = max (|s.pos - limitRange 0 s.stickPos 1| - limitRange 0 s.stickRate c.maxRate * q.dt) 0 ∧
      ((failLiqChamber c f q s).stuck = true ↔ (failLiqChamber c f q s).pos = limitRange 0 s.stickPos 1) := by
  obtain ⟨-, -, -, hr, -⟩ := sizes c p hv
  have hmt : c.minTemp ≤ c.maxTemp := by
    obtain ⟨-, -, -, -, -, -, -, -, -, -, -, -, h, -⟩ := hv
    exact h.le
  obtain ⟨b1, b2, -⟩ := id hb
  obtain ⟨r0, r1⟩ := ramp_pos c q.dt s.pos s.stickPos s.stickRate hdt b1 b2
  obtain ⟨-, -, -, k1, -⟩ := force_facts c f q
    (rampTo q.dt s.pos (limitRange 0 s.stickPos 1) (limitRange 0 s.stickRate c.maxRate)) true
    { s with
      stickPos := limitRange 0 s.stickPos 1
      stickRate := limitRange 0 s.stickRate c.maxRate } hr r0 r1 hmt
  unfold failLiqChamber
  rw [if_neg (by rw [hs]; decide)]
  simp only
  rw [k1]
  refine ⟨c92_ramp _ _ _ _ (mul_nonneg (le_lim _ _ _) hdt), ?_⟩
  rw [decide_eq_true_iff]
  exact eq_comm

/-- A temperature edit sets the temperature, within the limits, keeps the volume, and makes the mass the volume times the density
there. -/
theorem c92_edit_temp (c : Accum.Config K) (f : Liquid K) (s : Accum.State K) (he : s.editTemp = true) :
    (editTemperature c f s).temp = max (min s.editTempTo c.maxTemp) c.minTemp ∧ (editTemperature c f s).liquid = s.liquid ∧
      (editTemperature c f s).pos = s.pos ∧
      (editTemperature c f s).mass = max (s.liquid * f.density (max (min s.editTempTo c.maxTemp) c.minTemp) s.press) dblEps ∧
      (editTemperature c f s).editTemp = false := by
  unfold editTemperature
  rw [if_pos he]
  exact ⟨rfl, rfl, rfl, rfl, rfl⟩

/-- While the pressurizer overrides the bellows, what flows changes nothing in the chamber but its pressure. -/
theorem c92_override (c : Accum.Config K) (f : Liquid K) (q : Accum.Pass K) (s : Accum.State K) (ho : s.oride = true)
    (he : s.editTemp = false) :
    (Accum.updateFluid c f q s).mass = s.mass ∧ (Accum.updateFluid c f q s).pos = s.pos ∧
      (Accum.updateFluid c f q s).liquid = s.liquid ∧ (Accum.updateFluid c f q s).temp = s.temp := by
  unfold Accum.updateFluid updatePressure chamber editTemperature
  simp only [ho, he, Bool.false_eq_true, if_false, if_true]
  exact ⟨trivial, trivial, trivial, trivial⟩

/-- The capacitance is the amount of liquid per pressure at the slope of the spring: the pressure the spring gains with the bellows
moved by `h`, but for the part that is of second order in `h`, times the capacitance is the amount of liquid moved. -/
theorem c92_capacitance (c : Accum.Config K) (f : Liquid K) (s : Accum.State K) (h0 : s.head = 0) (hw : f.weight ≠ 0)
    (h : K)
    (hk : dblEps < 2 * s.pos * s.spring2 + s.spring1) :
    (updateCapacitance c f s).capacitance *
        (springPressure { s with pos := s.pos + h } - springPressure s - h ^ 2 * s.spring2) * f.weight
      = h * c.range * s.density := by
  have hk0 : 2 * s.pos * s.spring2 + s.spring1 ≠ 0 := ne_of_gt (lt_trans dblEps_pos hk)
  have e : (updateCapacitance c f s).capacitance = 1 / (2 * s.pos * s.spring2 + s.spring1) * c.range * s.density / f.weight := by
    unfold updateCapacitance
    simp only
    rw [h0, zero_div, add_zero, if_pos hk]
  rw [e]
  unfold springPressure
  simp only
  field_simp
  ring

/-- In the dead bands the conductance falls in a straight line to none at the end, when the flow is not one-way. -/
theorem c92_scale (c : Accum.Config K) (f : Liquid K) (lim p : K) (hv : valid c p) (q : Accum.Pass K) (s : Accum.State K)
    (hb : c92Bellows c s) (hs : s.stuck = false) (he : s.edit = false) (ho : s.oride = false) (ht : c.threshold ≤ dblEps) :
    (c.minVol < s.liquid → s.liquid < c.deadVol →
      (Accum.step c f lim q s).scale = (s.liquid - c.minVol) / (c.deadVol - c.minVol)) ∧
    (c.volume - (c.deadVol - c.minVol) < s.liquid → s.liquid < c.volume →
      (Accum.step c f lim q s).scale = (c.volume - s.liquid) / (c.deadVol - c.minVol)) := by
  obtain ⟨z1, z2, z3, z4, z5⟩ := sizes c p hv
  have hd : 0 < c.deadVol - c.minVol := by linarith
  have hx : (Accum.step c f lim q s).scale = (setScale c q.dt { updateCapacitance c f s with
      mode := fillMode c s.press q.before
      zone := bellowsZone c s.liquid }).scale := by
    show (updateScale c q (updateCapacitance c f s)).scale = _
    unfold updateScale
    rw [if_neg (not_le.2 hd)]
    rfl
  have hnt : ¬ dblEps < c.threshold := not_lt.2 ht
  rw [hx]
  constructor
  · intro h1 h2
    have hz : bellowsZone c s.liquid = .emptyDeadband := by
      unfold bellowsZone
      rw [if_neg (not_le.2 h1), if_neg (not_le.2 (by linarith)), if_pos h2]
    unfold setScale
    simp only [updateCapacitance, hs, he, ho, hz, hnt, Bool.false_eq_true, if_false, false_and, or_false, reduceCtorEq, if_true]
    unfold emptyScale
    exact lim_id (div_nonneg (by linarith) hd.le) ((div_le_one hd).2 (by linarith))
  · intro h1 h2
    have hz : bellowsZone c s.liquid = .fullDeadband := by
      unfold bellowsZone
      rw [if_neg (not_le.2 (by linarith)), if_neg (not_le.2 h2), if_neg (not_lt.2 (by linarith)), if_pos h1]
    have hpz : s.pressurizer - c.minVol = c.volume - s.liquid := by
      have a3 := hb.2.2.1
      have a4 := hb.2.2.2
      have hR : c.range = c.volume - c.minVol := rfl
      rw [a3, a4, hR]
      ring
    unfold setScale
    simp only [updateCapacitance, hs, he, ho, hz, hnt, Bool.false_eq_true, if_false, false_and, or_false, reduceCtorEq, if_true]
    unfold fullScale
    simp only
    rw [hpz]
    exact lim_id (div_nonneg (by linarith) hd.le) ((div_le_one hd).2 (by linarith))


private def cfg : Accum.Config ℚ :=
  { maxCond := 10, minScale := 1 / 100, volume := 1, minPercent := 1, deadPercent := 2, maxRate := 1 / 10, holdTime := 1,
    minTemp := 273, maxTemp := 373, maxPress := 1000, threshold := 0, oneWay := 0 }

private def liq : Accum.Liquid ℚ :=
  { weight := 18, density := fun _ _ => 1000, enthalpy := fun t => 4 * t, temperature := fun h => h / 4 }

private def half : Accum.State ℚ :=
  { stick := false, stickTo := false, stickPos := 0, stickRate := 0, edit := false, editPos := 0, editRate := 0, timer := 0,
    editTemp := false, editTempTo := 0, hold := false, holdTemp := false, reactive := true, oride := false, stuck := false,
    pos := 1 / 2, liquid := 505 / 1000, pressurizer := 505 / 1000, mass := 505, temp := 290, press := 150, density := 1000,
    spring0 := 100, spring1 := 100, spring2 := 0, head := 0, housing := 0, capacitance := 0, scale := 1, oneWay := 0, cond := 10,
    admittance := 10, mode := .equalized, zone := .middle, flux := 0, flow := 0 }

private def push : Accum.Pass ℚ := { dt := 1 / 10, before := 160, after := 160, enthalpy := 1200, gas := 0 }

example : valid cfg (1 / 2) := by unfold valid; decide +kernel

example : c92Bellows cfg half ∧ c92Open cfg half ∧ c92Mild cfg half ∧ c92Quiet half := by
  unfold c92Bellows c92Open c92Mild c92Quiet; decide +kernel

/-- The spring is a hundred kPa over 0.99 cubic metres, so ten kPa move 99 kg in one pass, and the pressures meet. -/
example : (Accum.pass cfg liq 100 push half).mass = 505 + 99 ∧ transported (Accum.pass cfg liq 100 push half) = 990 ∧
    (Accum.pass cfg liq 100 push half).press = 160 ∧ (Accum.pass cfg liq 100 push half).pos = 6 / 10 := by
  decide +kernel

/-- A spring that grows stiffer is overshot. -/
theorem c92_overshoot : push.after < (Accum.pass { cfg with maxCond := 1000 } liq 1000 push
    { half with spring0 := 125, spring1 := 1, spring2 := 98, press := 150 }).press ∧
    (Accum.pass { cfg with maxCond := 1000 } liq 1000 push
      { half with spring0 := 125, spring1 := 1, spring2 := 98, press := 150 }).pos < 1 := by
  decide +kernel

/-- A bellows that gets stuck lets one more flow through, that does not change its mass. -/
theorem c92_stuck_leak : transported (Accum.pass cfg liq 100 push { half with stick := true }) = 990 ∧
    (Accum.pass cfg liq 100 push { half with stick := true }).mass = half.mass := by
  decide +kernel

/-- A held accumulator gives and takes without changing. -/
theorem c92_hold_leak : transported (Accum.pass cfg liq 100 push { half with hold := true }) = 990 ∧
    (Accum.pass cfg liq 100 push { half with hold := true }).mass = half.mass ∧
    (Accum.pass cfg liq 100 push { half with hold := true }).press = half.press := by
  decide +kernel

private def nothing : Accum.State ℚ :=
  { half with pos := 0, liquid := 1 / 100, pressurizer := 1, mass := 10, press := 100, spring1 := 50, zone := .empty }

private def turn : Accum.Pass ℚ := { dt := 1 / 10, before := 110, after := 0, enthalpy := 1200, gas := 0 }

/-- An empty accumulator that is opened for filling drains when the solution turns the flow, and gives more than it has. -/
theorem c92_empty_drains : transported (Accum.pass cfg liq 100 turn nothing) = -180 ∧
    (Accum.pass cfg liq 100 turn nothing).mass = dblEps ∧ c92Bellows cfg nothing := by
  unfold c92Bellows
  decide +kernel

end Gunns.Props
