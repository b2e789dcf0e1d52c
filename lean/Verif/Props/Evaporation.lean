import Verif.Fluid.Evaporation
import Mathlib.Tactic.Linarith
import Mathlib.Tactic.FieldSimp
import Mathlib.Tactic.Ring
import Mathlib.Tactic.NormNum
import Mathlib.Tactic.Positivity

/-!
# C91: a pool evaporates no more than it has

The rate follows the vapour potential, never condenses and never takes more than the pool over the step, so over any passes the pool
does not fall below zero.  The mass that leaves the pool is the mass the gas gets only if the molecular weights are the same.
-/

namespace Gunns.Props

open Gunns Gunns.Evap Gunns.Interp

set_option linter.unusedSectionVars false

variable {K : Type*} [Field K] [LinearOrder K] [IsStrictOrderedRing K]

/-- The part of the rate a blockage leaves. -/
def c91open (q : Evap.Pass K) : K :=
  match q.block with
  | none => 1
  | some b => if b < 0 then 1 else if 1 < b then 0 else 1 - b

private theorem open_range (q : Evap.Pass K) : 0 ≤ c91open q ∧ c91open q ≤ 1 := by
  unfold c91open
  cases q.block with
  | none => exact ⟨zero_le_one, le_refl _⟩
  | some b =>
    simp only
    split
    · exact ⟨zero_le_one, le_refl _⟩
    · split
      · exact ⟨le_refl _, zero_le_one⟩
      · constructor <;> linarith

private theorem wanted_eq (c : Evap.Config K) (q : Evap.Pass K) (d m : K) :
    wanted c q d m = max d 0 * c.coeff * c.power m c.exponent * c91open q := by
  unfold wanted c91open
  cases q.block with
  | none => simp
  | some b =>
    simp only [limitRange]
    by_cases h : b < 0
    · rw [if_pos h, min_eq_left (by linarith), max_eq_right h.le, sub_zero]
    · rw [if_neg h]
      by_cases h2 : 1 < b
      · rw [if_pos h2, min_eq_right h2.le, max_eq_left zero_le_one, sub_self]
      · rw [if_neg h2, min_eq_left (not_lt.1 h2), max_eq_left (not_lt.1 h)]

/-- The weights and the step are not small. -/
def c91Usual (c : Evap.Config K) (q : Evap.Pass K) (p : Liquid K) : Prop :=
  dblEps < c.gasWeight ∧ dblEps < p.weight ∧ dblEps < q.dt

private theorem vapor_on (c : Evap.Config K) (q : Evap.Pass K) (p : Liquid K) (d : K) (hu : c91Usual c q p)
    (hm : fltEps < p.pool) :
    vaporRate c q p d = min (wanted c q d p.pool * p.weight / c.gasWeight) (p.pool / q.dt) * c.gasWeight / p.weight := by
  have hu' : dblEps < c.gasWeight ∧ dblEps < p.weight ∧ dblEps < q.dt := hu
  unfold vaporRate
  rw [if_pos hu', if_pos hm]

private theorem vapor_small (c : Evap.Config K) (q : Evap.Pass K) (p : Liquid K) (d : K) (hu : c91Usual c q p)
    (hm : ¬ fltEps < p.pool) : vaporRate c q p d = 0 := by
  have hu' : dblEps < c.gasWeight ∧ dblEps < p.weight ∧ dblEps < q.dt := hu
  unfold vaporRate
  rw [if_pos hu', if_neg hm]

private theorem vapor_off (c : Evap.Config K) (q : Evap.Pass K) (p : Liquid K) (d : K) (hu : ¬ c91Usual c q p) :
    vaporRate c q p d = 0 := by
  have hu' : ¬ (dblEps < c.gasWeight ∧ dblEps < p.weight ∧ dblEps < q.dt) := hu
  unfold vaporRate
  rw [if_neg hu']

/-- The potential drop a link works with: that of its gas node, or the last it was given. -/
def c91drop (q : Evap.Pass K) (l : Evap.Link K) : K :=
  match q.gas with
  | none => l.drop
  | some g => g.saturation - g.pressure * g.fraction

private theorem step_rate (c : Evap.Config K) (q : Evap.Pass K) (l : Evap.Link K) (p : Liquid K) (hp : q.liquid = some p) :
    (Evap.step c q l).rate = vaporRate c q p (c91drop q l) := by
  unfold Evap.step updatePower updateVaporRate updateVaporPotential c91drop
  rw [hp]
  cases q.gas <;> rfl

private theorem step_rate_none (c : Evap.Config K) (q : Evap.Pass K) (l : Evap.Link K) (hp : q.liquid = none) :
    (Evap.step c q l).rate = l.rate := by
  unfold Evap.step updatePower updateVaporRate updateVaporPotential
  rw [hp]
  cases q.gas <;> rfl

private theorem step_flux (c : Evap.Config K) (q : Evap.Pass K) (l : Evap.Link K) :
    (Evap.step c q l).flux = (Evap.step c q l).rate / max c.gasWeight dblEps ∧
      (Evap.step c q l).source0 = -(Evap.step c q l).flux ∧ (Evap.step c q l).source1 = (Evap.step c q l).flux := ⟨rfl, rfl, rfl⟩

/-- The rate: potential, coefficient and power of the pool's mass less the blockage, and no more than the pool over the step. -/
theorem c91_rate (c : Evap.Config K) (q : Evap.Pass K) (l : Evap.Link K) (p : Liquid K) (hp : q.liquid = some p)
    (hu : c91Usual c q p) (hm : fltEps < p.pool) :
    (Evap.step c q l).rate =
      min (max (c91drop q l) 0 * c.coeff * c.power p.pool c.exponent * c91open q) (p.pool / q.dt * (c.gasWeight / p.weight)) := by
  rw [step_rate c q l p hp]
  rw [vapor_on c q p _ hu hm, wanted_eq]
  have hg : 0 < c.gasWeight := lt_trans dblEps_pos hu.1
  have hw : 0 < p.weight := lt_trans dblEps_pos hu.2.1
  rw [mul_div_assoc, min_mul_of_nonneg _ _ (div_nonneg hg.le hw.le)]
  congr 1
  field_simp

/-- The rate is not negative, and what leaves the pool in the step is not more than the pool. -/
theorem c91_bounds (c : Evap.Config K) (q : Evap.Pass K) (l : Evap.Link K) (p : Liquid K) (hp : q.liquid = some p)
    (hc : 0 ≤ c.coeff) (hpw : ∀ x, 0 < x → 0 ≤ c.power x c.exponent) (hpool : 0 ≤ p.pool) :
    0 ≤ (Evap.step c q l).rate ∧
      (0 < c.gasWeight → 0 < p.weight → 0 < q.dt → (Evap.step c q l).rate * (p.weight / c.gasWeight) * q.dt ≤ p.pool) := by
  by_cases hu : c91Usual c q p
  · by_cases hm : fltEps < p.pool
    · rw [c91_rate c q l p hp hu hm]
      have hg : 0 < c.gasWeight := lt_trans dblEps_pos hu.1
      have hw : 0 < p.weight := lt_trans dblEps_pos hu.2.1
      have hd : 0 < q.dt := lt_trans dblEps_pos hu.2.2
      have h1 : 0 ≤ p.pool / q.dt * (c.gasWeight / p.weight) := by positivity
      have h2 := hpw p.pool (lt_trans fltEps_pos hm)
      have h3 := (open_range q).1
      have h4 : 0 ≤ max (c91drop q l) 0 := le_max_right _ _
      refine ⟨le_min (by positivity) h1, fun _ _ _ => ?_⟩
      have h5 := min_le_right (max (c91drop q l) 0 * c.coeff * c.power p.pool c.exponent * c91open q)
        (p.pool / q.dt * (c.gasWeight / p.weight))
      calc _ ≤ p.pool / q.dt * (c.gasWeight / p.weight) * (p.weight / c.gasWeight) * q.dt := by gcongr
        _ = p.pool := by field_simp
    · rw [step_rate c q l p hp]
      rw [vapor_small c q p _ hu hm]
      exact ⟨le_refl _, fun _ _ _ => by rw [zero_mul, zero_mul]; exact hpool⟩
  · rw [step_rate c q l p hp]
    rw [vapor_off c q p _ hu]
    exact ⟨le_refl _, fun _ _ _ => by rw [zero_mul, zero_mul]; exact hpool⟩

/-- With accepted data nothing condenses back: the rate is not negative, without liquid and with it, from the first pass on. -/
theorem c91_accepted (c : Evap.Config K) (d : Evap.Input K) (h : accepted c d) (hpw : ∀ x, 0 < x → 0 ≤ c.power x c.exponent)
    (q : Evap.Pass K) (hq : ∀ p, q.liquid = some p → 0 ≤ p.pool) (l : Evap.Link K) (hl : l.rate = d.rate) :
    0 ≤ (Evap.step c q l).rate := by
  cases hp : q.liquid with
  | some p => exact (c91_bounds c q l p hp h.2.2.1 hpw (hq p hp)).1
  | none =>
    have : (Evap.step c q l).rate = l.rate := by
      unfold Evap.step updatePower updateVaporRate updateVaporPotential
      rw [hp]
      cases q.gas <;> rfl
    rw [this, hl]
    exact h.2.2.2.2.2

/-- Nothing evaporates into a saturated gas, from a pool of next to nothing, or through a full blockage. -/
theorem c91_dry (c : Evap.Config K) (q : Evap.Pass K) (l : Evap.Link K) (p : Liquid K) (hp : q.liquid = some p)
    (hpool : 0 ≤ p.pool) (h : c91drop q l ≤ 0 ∨ p.pool ≤ fltEps ∨ q.block = some 1) :
    (Evap.step c q l).rate = 0 ∧ (Evap.step c q l).source0 = 0 ∧ (Evap.step c q l).source1 = 0 ∧
      (Evap.pass c q l).2.vapour = 0 ∧ (Evap.pass c q l).2.liquid = 0 := by
  have h0 : (Evap.step c q l).rate = 0 := by
    by_cases hu : c91Usual c q p
    · by_cases hm : fltEps < p.pool
      · rw [c91_rate c q l p hp hu hm]
        have hg : 0 < c.gasWeight := lt_trans dblEps_pos hu.1
        have hw : 0 < p.weight := lt_trans dblEps_pos hu.2.1
        have hd : 0 < q.dt := lt_trans dblEps_pos hu.2.2
        have h1 : 0 ≤ p.pool / q.dt * (c.gasWeight / p.weight) := by positivity
        have h2 : max (c91drop q l) 0 * c.coeff * c.power p.pool c.exponent * c91open q = 0 := by
          rcases h with h | h | h
          · rw [max_eq_right h]; ring
          · exact absurd hm (not_lt.2 h)
          · have : c91open q = 0 := by
              unfold c91open
              rw [h]
              simp only
              rw [if_neg (not_lt.2 zero_le_one), if_neg (lt_irrefl _), sub_self]
            rw [this, mul_zero]
        rw [h2, min_eq_left h1]
      · rw [step_rate c q l p hp]
        rw [vapor_small c q p _ hu hm]
    · rw [step_rate c q l p hp]
      rw [vapor_off c q p _ hu]
  obtain ⟨s1, s2, s3⟩ := step_flux c q l
  have hf : (Evap.step c q l).flux = 0 := by rw [s1, h0, zero_div]
  have hl : ¬ 100 * dblEps < (0 : K) := by
    have := dblEps_pos (K := K)
    intro h'
    linarith
  refine ⟨h0, by rw [s2, hf, neg_zero], by rw [s3, hf], ?_, ?_⟩
  all_goals
    unfold Evap.pass transportFlows
    cases q.gas <;> simp only [h0, if_neg hl]

/-- A larger drop does not give less. -/
theorem c91_mono (c : Evap.Config K) (q : Evap.Pass K) (l l' : Evap.Link K) (p : Liquid K) (hp : q.liquid = some p)
    (hg : q.gas = none) (hu : c91Usual c q p) (hc : 0 ≤ c.coeff) (hpw : ∀ x, 0 < x → 0 ≤ c.power x c.exponent)
    (h : l.drop ≤ l'.drop) : (Evap.step c q l).rate ≤ (Evap.step c q l').rate := by
  by_cases hm : fltEps < p.pool
  · rw [c91_rate c q l p hp hu hm, c91_rate c q l' p hp hu hm]
    have h2 := hpw p.pool (lt_trans fltEps_pos hm)
    have h3 := (open_range q).1
    have h5 : c91drop q l ≤ c91drop q l' := by unfold c91drop; rw [hg]; exact h
    have h6 : max (c91drop q l) 0 ≤ max (c91drop q l') 0 := max_le_max h5 (le_refl _)
    apply min_le_min _ (le_refl _)
    gcongr
  · rw [step_rate c q l p hp, step_rate c q l' p hp]
    rw [vapor_small c q p _ hu hm, vapor_small c q p _ hu hm]

/-- The network is given equal and opposite moles; the gas node gets the rate, and the liquid node loses it times the ratio of the
molecular weights: the masses are the same only for equal weights. -/
theorem c91_exchange (c : Evap.Config K) (q : Evap.Pass K) (l : Evap.Link K) (p : Liquid K) (g : Gas K) (hp : q.liquid = some p)
    (hg : q.gas = some g) (hw : dblEps ≤ c.gasWeight) (hr : 100 * dblEps < (Evap.step c q l).rate) :
    (Evap.step c q l).source0 + (Evap.step c q l).source1 = 0 ∧
      (Evap.step c q l).source1 * c.gasWeight = (Evap.step c q l).rate ∧
      (Evap.pass c q l).2.vapour = (Evap.step c q l).rate ∧
      (Evap.pass c q l).2.liquid = (Evap.step c q l).rate * (p.outWeight / c.gasWeight) ∧
      ((Evap.pass c q l).2.liquid = (Evap.pass c q l).2.vapour ↔ p.outWeight = c.gasWeight) ∧
      (Evap.pass c q l).1.power = g.heat * 1000 * (Evap.step c q l).rate ∧ (Evap.pass c q l).1.pressure = g.pressure := by
  obtain ⟨s1, s2, s3⟩ := step_flux c q l
  rw [max_eq_left hw] at s1
  have hpos : 0 < c.gasWeight := lt_of_lt_of_le dblEps_pos hw
  have hv : (Evap.pass c q l).2.vapour = (Evap.step c q l).rate := by
    unfold Evap.pass transportFlows
    simp only [hg, hp]
    rw [if_pos hr]
    rfl
  have hl : (Evap.pass c q l).2.liquid = (Evap.step c q l).rate * (p.outWeight / c.gasWeight) := by
    unfold Evap.pass transportFlows
    simp only [hg, hp]
    rw [if_pos hr]
    simp only [s1]
    ring
  have hr0 : (Evap.step c q l).rate ≠ 0 := by
    have := dblEps_pos (K := K)
    exact ne_of_gt (by linarith)
  refine ⟨by rw [s2, s3]; ring, by rw [s3, s1]; field_simp, hv, hl, ?_, ?_, ?_⟩
  · rw [hl, hv]
    constructor
    · intro h
      have h1 : p.outWeight / c.gasWeight = 1 := mul_left_cancel₀ hr0 (by rw [h, mul_one])
      rwa [div_eq_one_iff_eq hpos.ne'] at h1
    · intro h
      rw [h, div_self hpos.ne', mul_one]
  · unfold Evap.pass transportFlows
    simp only [hg]
    rw [if_pos hr]
    unfold Evap.step updatePower
    simp only [hg]
  · unfold Evap.pass transportFlows
    simp only [hg]
    rw [if_pos hr]

private theorem moved_none (c : Evap.Config K) (q : Evap.Pass K) (l : Evap.Link K)
    (hr : ¬ 100 * dblEps < (Evap.step c q l).rate) : (Evap.pass c q l).2.liquid = 0 := by
  unfold Evap.pass transportFlows
  cases hg : q.gas <;> simp only [if_neg hr]

/-- A pool that is not negative stays so over any passes, if nothing else is taken from it. -/
theorem c91_pool (c : Evap.Config K) (as : List (Around K)) (m : K) (l : Evap.Link K) (hc : 0 ≤ c.coeff)
    (hw : dblEps ≤ c.gasWeight) (hpw : ∀ x, 0 < x → 0 ≤ c.power x c.exponent)
    (has : ∀ a ∈ as, 0 ≤ a.feed ∧ 0 < a.dt ∧ 0 < a.weight) (hm : 0 ≤ m) : 0 ≤ pools c as m l := by
  induction as generalizing m l with
  | nil => exact hm
  | cons a as ih =>
    unfold pools
    apply ih _ _ (fun b hb => has b (List.mem_cons_of_mem _ hb))
    obtain ⟨hf, hd, hwt⟩ := has a List.mem_cons_self
    have hpos : 0 < c.gasWeight := lt_of_lt_of_le dblEps_pos hw
    obtain ⟨h1, h2⟩ := c91_bounds c (a.pass m) l _ rfl hc hpw hm
    have h3 := h2 hpos hwt hd
    have h4 : (Evap.pass c (a.pass m) l).2.liquid * a.dt ≤ m := by
      by_cases hr : 100 * dblEps < (Evap.step c (a.pass m) l).rate
      · have h5 := (c91_exchange c (a.pass m) l _ _ rfl rfl hw hr).2.2.2.1
        rw [h5]
        exact h3
      · have : (Evap.pass c (a.pass m) l).2.liquid = 0 := by
          exact moved_none c (a.pass m) l hr
        rw [this, zero_mul]
        exact hm
    linarith

/-- What two links in two networks have moved, after passes with given steps, blockages, liquids and gases. -/
def c91runs (c : Evap.Config K) (dt : K) : List (Option K × Liquid K × Gas K) → Pair K → Pair K
  | [], s => s
  | e :: es, s => c91runs c dt es (exchange c dt e.1 e.2.1 e.2.2 s)

/-- What is on its way between two networks. -/
def c91away (dt : K) (s : Pair K) : K := if 100 * dblEps < s.dry.rate then s.dry.rate * dt else 0

/-- Two links in two networks lose nothing: over any passes, what came to the gas and what is on its way is what left the liquid,
if the liquid has the molecular weight of the gas. -/
theorem c91_pair (c : Evap.Config K) (dt : K) (es : List (Option K × Liquid K × Gas K)) (s : Pair K) (hw : dblEps ≤ c.gasWeight)
    (hes : ∀ e ∈ es, e.2.1.outWeight = c.gasWeight) :
    (c91runs c dt es s).come + c91away dt (c91runs c dt es s) - (c91runs c dt es s).gone = s.come + c91away dt s - s.gone := by
  induction es generalizing s with
  | nil => rfl
  | cons e es ih =>
    unfold c91runs
    rw [ih _ (fun f hf => hes f (List.mem_cons_of_mem _ hf))]
    have he := hes e List.mem_cons_self
    have hpos : 0 < c.gasWeight := lt_of_lt_of_le dblEps_pos hw
    have hd : (Evap.pass c { dt := dt, block := none, liquid := none, gas := some e.2.2 } s.dry).2.vapour * dt = c91away dt s := by
      have hr := step_rate_none c { dt := dt, block := none, liquid := none, gas := some e.2.2 } s.dry rfl
      unfold Evap.pass transportFlows c91away
      simp only [hr]
      split
      · rfl
      · exact zero_mul _
    have hl : (Evap.pass c { dt := dt, block := e.1, liquid := some e.2.1, gas := none } s.wet).2.liquid * dt
        = (if 100 * dblEps < (Evap.pass c { dt := dt, block := e.1, liquid := some e.2.1, gas := none } s.wet).1.rate
            then (Evap.pass c { dt := dt, block := e.1, liquid := some e.2.1, gas := none } s.wet).1.rate * dt else 0) := by
      have s1 := (step_flux c { dt := dt, block := e.1, liquid := some e.2.1, gas := none } s.wet).1
      rw [max_eq_left hw] at s1
      unfold Evap.pass transportFlows
      simp only
      split
      · simp only
        rw [s1, he]
        field_simp
      · simp only
        rw [zero_mul]
    unfold exchange
    simp only
    rw [hd, hl]
    unfold c91away
    simp only
    ring

/-! ## Cases -/

private def water : Evap.Config ℚ := { coeff := 1 / 100, exponent := 1, gasWeight := 18, power := fun x _ => x }

private def start : Evap.Link ℚ := { pressure := 100, drop := 0, rate := 0, flux := 0, power := 0, source0 := 0, source1 := 0 }

private def puddle : Liquid ℚ := { pool := 2, weight := 18, outWeight := 18 }

private def glycol : Liquid ℚ := { pool := 2, weight := 36, outWeight := 36 }

private def humid : Gas ℚ := { pressure := 100, fraction := 1 / 100, saturation := 3, heat := 2400 }

private def both (p : Liquid ℚ) (b : Option ℚ) (dt : ℚ) : Evap.Pass ℚ := { dt := dt, block := b, liquid := some p, gas := some humid }

example : accepted water { pressure := 100, drop := 0, rate := 0 } := by unfold accepted; decide +kernel

example : c91Usual water (both puddle none 1) puddle ∧ fltEps < puddle.pool := by unfold c91Usual; decide +kernel

/-- The usual rate, half of it through a half blockage, and all of the pool in a long step. -/
example : (Evap.pass water (both puddle none 1) start).2.vapour = 1 / 25 ∧
    (Evap.pass water (both puddle (some (1 / 2)) 1) start).2.vapour = 1 / 50 ∧
    (Evap.pass water (both puddle none 100) start).2.liquid = 1 / 50 := by
  decide +kernel

/-- Out of a solution twice the mass leaves the liquid that comes to the gas. -/
theorem c91_solution : (Evap.pass water (both glycol none 1) start).2.vapour = 1 / 25 ∧
    (Evap.pass water (both glycol none 1) start).2.liquid = 2 / 25 := by
  decide +kernel

private def around : Around ℚ := { dt := 100, block := none, gas := humid, weight := 18, feed := 1 / 10 }

example : pools water [around, around] 2 start = 1 / 10 := by decide +kernel

private def fresh : Pair ℚ := { wet := start, dry := start, gone := 0, come := 0 }

private def thrice : List (Option ℚ × Liquid ℚ × Gas ℚ) := [(none, puddle, humid), (none, puddle, humid), (none, puddle, humid)]

example : (c91runs water 1 thrice fresh).gone = 2 / 25 ∧ (c91runs water 1 thrice fresh).come = 1 / 25 ∧
    c91away 1 (c91runs water 1 thrice fresh) = 1 / 25 := by
  decide +kernel

end Gunns.Props
