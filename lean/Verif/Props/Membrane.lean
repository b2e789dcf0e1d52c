import Verif.Fluid.Membrane
import Mathlib.Tactic.Linarith
import Mathlib.Tactic.Ring
import Mathlib.Tactic.LinearCombination
import Mathlib.Tactic.FieldSimp
import Mathlib.Tactic.Positivity
import Mathlib.Tactic.NormNum

/-!
# Properties of the selective membrane
-/

namespace Gunns.Props

open Gunns.Membrane

set_option linter.unusedSectionVars false

variable {K : Type*} [Field K] [LinearOrder K] [IsStrictOrderedRing K]

/-- How much more of the compound a port has than the vent, in partial pressure. -/
private def excess (port : ℕ → Port K) (i : ℕ) : K :=
  (port i).pressure * (port i).moles - (port 2).pressure * (port 2).moles

/-- The share of the membrane that the malfunction leaves. -/
private def health (c : Compound K) : K :=
  match c.degrade with
  | some v => if v ≤ 0 then 1 else if 1 ≤ v then 0 else 1 - v
  | none => 1

/-- Mass into a port. -/
private def massInto (l : List (Flow K)) (i : ℕ) : K :=
  ((l.filter (fun f => f.port = i)).map Flow.rate).sum

/-- Mass of the compound into a port. -/
private def compoundInto (l : List (Flow K)) (i : ℕ) : K :=
  ((l.filter (fun f => f.port = i)).map (fun f => f.rate * f.fraction)).sum

private theorem degraded_eq (c : Compound K) (r : K) : degraded c r = r * health c := by
  unfold degraded health Gunns.Interp.limitRange
  cases c.degrade with
  | none => simp
  | some v =>
    simp only
    by_cases h : v ≤ 0
    · rw [if_pos h, min_eq_left (le_trans h zero_le_one), max_eq_right h]
      ring
    · rw [if_neg h]
      push Not at h
      by_cases h1 : 1 ≤ v
      · rw [if_pos h1, min_eq_right h1, max_eq_left zero_le_one]
        ring
      · rw [if_neg h1]
        push Not at h1
        rw [min_eq_left h1.le, max_eq_left h.le]

private theorem health_nonneg (c : Compound K) : 0 ≤ health c := by
  unfold health
  cases c.degrade with
  | none => simp
  | some v =>
    simp only
    split_ifs with h1 h2
    · exact zero_le_one
    · exact le_refl _
    · push Not at h2
      linarith

private theorem health_le_one (c : Compound K) : health c ≤ 1 := by
  unfold health
  cases c.degrade with
  | none => simp
  | some v =>
    simp only
    split_ifs with h1 h2
    · exact le_refl _
    · exact zero_le_one
    · push Not at h1
      linarith

private theorem deltaP_eq (port : ℕ → Port K) (i : ℕ) : deltaP port i = excess port i := rfl

private theorem sourcePort_le (port : ℕ → Port K) (x : K) : sourcePort port x ≤ 1 := by
  unfold sourcePort
  split_ifs <;> simp

private theorem eps_pos : (0 : K) < eps100 := by
  unfold eps100
  have := dblEps_pos (K := K)
  linarith

/-- The port that the stream comes from. -/
private def upstream (port : ℕ → Port K) (s : State K) : ℕ := sourcePort port s.flux

/-- The stream comes from port 0 unless it flows backwards; a ground node is no source while the other is none. -/
theorem c84_upstream (port : ℕ → Port K) (x : K) (h0 : (port 0).ground = false) (h1 : (port 1).ground = false) :
    sourcePort port x = if x < 0 then 1 else 0 := by
  unfold sourcePort
  simp [h0, h1]

/-- The law of the membrane.  More of the compound at both ends of the stream than in the vent: it leaves the stream in
proportion to the excess upstream, up to 99 % of what the stream brings.  Less at both ends: it enters in proportion to what
the downstream end lacks.  More at one and less at the other: no flow.  In all cases times the health of the membrane. -/
theorem c84_law (c : Compound K) (port : ℕ → Port K) (s : State K) (u d : ℕ)
    (hu : u = sourcePort port s.flux) (hd : d = 1 - u) :
    (0 < excess port u → 0 ≤ excess port d →
      (step c port s).rate = min (c.coeff * excess port u) (99 / 100 * |s.flow| * (port u).fraction) * health c)
    ∧ (excess port u < 0 → excess port d ≤ 0 → 0 ≤ c.coeff →
      (step c port s).rate = c.coeff * excess port d * health c)
    ∧ (0 < excess port u → excess port d < 0 → (step c port s).rate = 0)
    ∧ (excess port u < 0 → 0 < excess port d → (step c port s).rate = 0) := by
  have hs : (step c port s).rate = membraneRate c port s.flow u := by rw [hu]; rfl
  rw [hs]
  unfold membraneRate
  rw [← hd, deltaP_eq, deltaP_eq]
  refine ⟨fun h1 h2 => ?_, fun h1 h2 h3 => ?_, fun h1 h2 => ?_, fun h1 h2 => ?_⟩
  · rw [if_neg (not_lt.mpr (mul_nonneg h2 h1.le)), degraded_eq]
    unfold drivingPort available
    have h1' : 0 < deltaP port u := h1
    rw [if_pos h1', if_pos h1', deltaP_eq, mul_comm c.coeff]
  · rw [if_neg (not_lt.mpr (mul_nonneg_of_nonpos_of_nonpos h2 h1.le)), degraded_eq]
    unfold drivingPort available
    have h1' : ¬ 0 < deltaP port u := not_lt.mpr h1.le
    rw [if_neg h1', if_neg h1', deltaP_eq, ← hd, mul_comm c.coeff, min_eq_left]
    have : c.coeff * excess port d ≤ 0 := mul_nonpos_of_nonneg_of_nonpos h3 h2
    rw [mul_comm] at this
    exact le_trans this (by positivity)
  · rw [if_pos (mul_neg_of_neg_of_pos h2 h1)]
  · rw [if_pos (mul_neg_of_pos_of_neg h2 h1)]

/-- So the compound never flows from less to more, nor more of it than 99 % of what the stream brings, unless the upstream
end and the vent have exactly the same partial pressure. -/
theorem c84_direction (c : Compound K) (port : ℕ → Port K) (s : State K) (u d : ℕ)
    (hu : u = sourcePort port s.flux) (hd : d = 1 - u) (hc : 0 ≤ c.coeff) (hf : 0 ≤ (port u).fraction)
    (hne : excess port u ≠ 0) :
    (0 < (step c port s).rate → 0 < excess port u ∧ 0 ≤ excess port d
      ∧ (step c port s).rate ≤ 99 / 100 * |s.flow| * (port u).fraction)
    ∧ ((step c port s).rate < 0 → excess port u < 0 ∧ excess port d < 0) := by
  obtain ⟨h1, h2, h3, h4⟩ := c84_law c port s u d hu hd
  have hh := health_nonneg c
  have hh1 := health_le_one c
  have hA : 0 ≤ 99 / 100 * |s.flow| * (port u).fraction := by positivity
  rcases lt_or_gt_of_ne hne with hn | hp
  · rcases le_or_gt (excess port d) 0 with hd' | hd'
    · have e := h2 hn hd' hc
      constructor
      · intro hpos
        have : c.coeff * excess port d * health c ≤ 0 :=
          mul_nonpos_of_nonpos_of_nonneg (mul_nonpos_of_nonneg_of_nonpos hc hd') hh
        linarith
      · intro hneg
        refine ⟨hn, lt_of_le_of_ne hd' ?_⟩
        intro h0
        rw [e, h0] at hneg
        simp at hneg
    · have e := h4 hn hd'
      rw [e]
      exact ⟨fun h => absurd h (lt_irrefl _), fun h => absurd h (lt_irrefl _)⟩
  · rcases lt_or_ge (excess port d) 0 with hd' | hd'
    · have e := h3 hp hd'
      rw [e]
      exact ⟨fun h => absurd h (lt_irrefl _), fun h => absurd h (lt_irrefl _)⟩
    · have e := h1 hp hd'
      have hm : 0 ≤ min (c.coeff * excess port u) (99 / 100 * |s.flow| * (port u).fraction) :=
        le_min (mul_nonneg hc hp.le) hA
      constructor
      · intro _
        refine ⟨hp, hd', ?_⟩
        rw [e]
        calc _ ≤ min (c.coeff * excess port u) (99 / 100 * |s.flow| * (port u).fraction) * 1 :=
              mul_le_mul_of_nonneg_left hh1 hm
          _ ≤ _ := by rw [mul_one]; exact min_le_right _ _
      · intro hneg
        have : 0 ≤ (step c port s).rate := by rw [e]; exact mul_nonneg hm hh
        linarith

/-- The moles: what the vent is given leaves the stream upstream, what it loses enters downstream, and nothing is made. -/
theorem c84_source (c : Compound K) (port : ℕ → Port K) (s : State K) (u d : ℕ)
    (hu : u = sourcePort port s.flux) (hd : d = 1 - u) (hw : 0 < c.weight) :
    (step c port s).source 2 * c.weight = (step c port s).rate
    ∧ (step c port s).source 0 + (step c port s).source 1 + (step c port s).source 2 = 0
    ∧ (0 < (step c port s).rate → (step c port s).source d = 0)
    ∧ ((step c port s).rate ≤ 0 → (step c port s).source u = 0) := by
  have hs : (step c port s).source = sourceVector ((step c port s).rate / c.weight) u := by rw [hu]; rfl
  rw [hs]
  have hu1 : u ≤ 1 := by rw [hu]; exact sourcePort_le _ _
  have hu' : u = 0 ∨ u = 1 := by omega
  have key : ∀ x : K, (sourceVector x u 0 + sourceVector x u 1 + sourceVector x u 2 = 0) ∧
      (0 < x → sourceVector x u d = 0) ∧ (x ≤ 0 → sourceVector x u u = 0) := by
    intro x
    have hd' : d = 1 ∧ u = 0 ∨ d = 0 ∧ u = 1 := by omega
    unfold sourceVector
    by_cases hx : 0 < x
    · refine ⟨?_, fun _ => ?_, fun h => absurd hx (not_lt.mpr h)⟩ <;>
        rcases hd' with ⟨h, h'⟩ | ⟨h, h'⟩ <;> rw [h'] <;> simp [hx, h]
    · refine ⟨?_, fun h => absurd h hx, fun _ => ?_⟩ <;>
        rcases hd' with ⟨h, h'⟩ | ⟨h, h'⟩ <;> rw [h'] <;> simp [hx]
  obtain ⟨k1, k2, k3⟩ := key ((step c port s).rate / c.weight)
  refine ⟨?_, k1, fun h => k2 (div_pos h hw), fun h => k3 (div_nonpos_of_nonpos_of_nonneg h hw.le)⟩
  unfold sourceVector
  simp only [if_true]
  field_simp

/-- Transport keeps the books: over the three ports neither mass nor compound is made or lost, the vent gets exactly the
membrane's rate of compound and nothing else, if the rate is not below the limit of resolution. -/
theorem c84_books (port : ℕ → Port K) (s : State K) (w : K) (fr : ℕ → K) (hg0 : (port 0).ground = false)
    (hg1 : (port 1).ground = false) (h2 : fr 2 ≤ 1) (hu : fr (sourcePort port s.flux) ≤ 1) :
    massInto (transport port s w fr) 0 + massInto (transport port s w fr) 1 + massInto (transport port s w fr) 2 = 0
    ∧ compoundInto (transport port s w fr) 0 + compoundInto (transport port s w fr) 1
        + compoundInto (transport port s w fr) 2 = 0
    ∧ massInto (transport port s w fr) 2 = (if eps100 < |s.rate| then s.rate else 0)
    ∧ compoundInto (transport port s w fr) 2 = (if eps100 < |s.rate| then s.rate else 0) := by
  have hp := eps_pos (K := K)
  have hsp := sourcePort_le port s.flux
  have hup : sourcePort port s.flux = 0 ∨ sourcePort port s.flux = 1 := by omega
  -- taking from a node takes pure compound
  have take : ∀ (i : ℕ) (r : K), fr i ≤ 1 → takeFrom i r fr = ⟨i, -r, 1⟩ := by
    intro i r hi
    unfold takeFrom
    by_cases h : fr i < 1
    · rw [if_pos h]
    · rw [if_neg h, le_antisymm hi (not_lt.mp h)]
  -- the bulk flow
  have bulk : massInto (through (sourcePort port (w * s.flux)) (w * s.flux) fr) 0
        + massInto (through (sourcePort port (w * s.flux)) (w * s.flux) fr) 1 = 0
      ∧ compoundInto (through (sourcePort port (w * s.flux)) (w * s.flux) fr) 0
        + compoundInto (through (sourcePort port (w * s.flux)) (w * s.flux) fr) 1 = 0
      ∧ massInto (through (sourcePort port (w * s.flux)) (w * s.flux) fr) 2 = 0
      ∧ compoundInto (through (sourcePort port (w * s.flux)) (w * s.flux) fr) 2 = 0 := by
    rw [c84_upstream port _ hg0 hg1]
    generalize w * s.flux = x
    unfold through
    by_cases h1 : eps100 < x
    · have : ¬ x < 0 := not_lt.mpr (le_of_lt (lt_trans hp h1))
      simp [h1, this, massInto, compoundInto]
    · by_cases h2 : x < -eps100
      · have : x < 0 := by linarith
        simp [h1, h2, this, massInto, compoundInto]
      · simp [h1, h2, massInto, compoundInto]
  have app : ∀ (l1 l2 : List (Flow K)) (i : ℕ), massInto (l1 ++ l2) i = massInto l1 i + massInto l2 i
      ∧ compoundInto (l1 ++ l2) i = compoundInto l1 i + compoundInto l2 i := by
    intro l1 l2 i
    constructor <;> simp [massInto, compoundInto]
  have cross : massInto (across (sourcePort port s.flux) s.rate fr) 0
        + massInto (across (sourcePort port s.flux) s.rate fr) 1
        + massInto (across (sourcePort port s.flux) s.rate fr) 2 = 0
      ∧ compoundInto (across (sourcePort port s.flux) s.rate fr) 0
        + compoundInto (across (sourcePort port s.flux) s.rate fr) 1
        + compoundInto (across (sourcePort port s.flux) s.rate fr) 2 = 0
      ∧ massInto (across (sourcePort port s.flux) s.rate fr) 2 = (if eps100 < |s.rate| then s.rate else 0)
      ∧ compoundInto (across (sourcePort port s.flux) s.rate fr) 2 = (if eps100 < |s.rate| then s.rate else 0) := by
    unfold across
    by_cases h1 : eps100 < s.rate
    · have ha : eps100 < |s.rate| := lt_of_lt_of_le h1 (le_abs_self _)
      rw [if_pos h1, take _ _ hu, if_pos ha]
      rcases hup with h | h <;> rw [h] <;> simp [massInto, compoundInto]
    · rw [if_neg h1]
      by_cases hn : s.rate < -eps100
      · have ha : eps100 < |s.rate| := by
          have := neg_le_abs s.rate
          linarith
        rw [if_pos hn, take _ _ h2, if_pos ha]
        rcases hup with h | h <;> rw [h] <;> simp [massInto, compoundInto]
      · have ha : ¬ eps100 < |s.rate| := by
          rw [not_lt]
          exact abs_le.mpr ⟨not_lt.mp hn, not_lt.mp h1⟩
        rw [if_neg hn, if_neg ha]
        simp [massInto, compoundInto]
  obtain ⟨b1, b2, b3, b4⟩ := bulk
  obtain ⟨x1, x2, x3, x4⟩ := cross
  unfold transport
  simp only [(app _ _ _).1, (app _ _ _).2]
  refine ⟨?_, ?_, ?_, ?_⟩
  · linear_combination b1 + b3 + x1
  · linear_combination b2 + b4 + x2
  · rw [b3, x3, zero_add]
  · rw [b4, x4, zero_add]

/-- The moles of the step and the masses of the transport agree port by port, if the stream does not turn in between. -/
theorem c84_agree (c : Compound K) (port : ℕ → Port K) (s t : State K) (fr : ℕ → K) (hw : 0 < c.weight)
    (ht : t.rate = (step c port s).rate) (hsame : sourcePort port t.flux = sourcePort port s.flux)
    (hbig : eps100 < |t.rate|) (i : ℕ) (hi : i ≤ 2) :
    massInto (across (sourcePort port t.flux) t.rate fr) i = (step c port s).source i * c.weight := by
  have hp := eps_pos (K := K)
  have hs : (step c port s).source = sourceVector (t.rate / c.weight) (sourcePort port t.flux) := by
    rw [hsame, ht]; rfl
  rw [hs]
  have hsp := sourcePort_le port t.flux
  have hup : sourcePort port t.flux = 0 ∨ sourcePort port t.flux = 1 := by omega
  have tr : ∀ (j : ℕ) (r : K), (takeFrom j r fr).port = j ∧ (takeFrom j r fr).rate = -r := by
    intro j r
    unfold takeFrom
    split_ifs <;> simp
  have hwne : c.weight ≠ 0 := ne_of_gt hw
  have hdiv : t.rate / c.weight * c.weight = t.rate := div_mul_cancel₀ _ hwne
  have hi' : i = 0 ∨ i = 1 ∨ i = 2 := by omega
  rcases lt_or_ge 0 t.rate with hpos | hneg
  · rw [abs_of_pos hpos] at hbig
    have hq : 0 < t.rate / c.weight := div_pos hpos hw
    unfold across sourceVector
    rw [if_pos hbig]
    rcases hup with h | h <;> rw [h] <;> rcases hi' with h' | h' | h' <;> subst h' <;>
      simp [massInto, List.filter, (tr _ _).1, (tr _ _).2, hq, hdiv]
  · rw [abs_of_nonpos hneg] at hbig
    have hq : ¬ 0 < t.rate / c.weight := not_lt.mpr (div_nonpos_of_nonpos_of_nonneg hneg hw.le)
    have h1 : ¬ eps100 < t.rate := by
      rw [not_lt]
      linarith
    have h2 : t.rate < -eps100 := by linarith
    unfold across sourceVector
    rw [if_neg h1, if_pos h2]
    rcases hup with h | h <;> rw [h] <;> rcases hi' with h' | h' | h' <;> subst h' <;>
      simp [massInto, List.filter, (tr _ _).1, (tr _ _).2, hq, hdiv]

/-- The heat of a phase change that the compound undergoes on its way: condensing gives off heat, evaporating takes it. -/
private def passageHeat (c : Compound K) (amount temp : K) (saturatedSource : Bool) : K :=
  (if saturatedSource then -1 else 1) * (1000 * c.vapor temp * amount)

/-- Out of the stream the heat is that of the change at the upstream temperature: positive from an unsaturated source,
negative from a saturated one, none without a change. -/
theorem c84_heat (c : Compound K) (port : ℕ → Port K) (s : State K) (u : ℕ) (hu : u = sourcePort port s.flux)
    (hr : 0 < (step c port s).rate) :
    (step c port s).heat = if (step c port s).intSat = (step c port s).extSat then 0
      else passageHeat c (step c port s).rate (port u).temp (step c port s).intSat := by
  have e : ¬ deltaP port (1 - u) * deltaP port u < 0 := by
    intro h
    have : (step c port s).rate = 0 := by
      change membraneRate c port s.flow (sourcePort port s.flux) = 0
      rw [← hu]
      unfold membraneRate
      rw [if_pos h]
    linarith
  have h1 : (step c port s).intSat = intSaturated c port u := by
    change nextIntSat c port s (sourcePort port s.flux) = _
    rw [← hu]
    unfold nextIntSat
    rw [if_neg e]
  have h2 : (step c port s).heat = if nextChange c port u = true then
      changeHeat c port (step c port s).rate (step c port s).intSat (step c port s).extSat u else 0 := by
    rw [hu]; rfl
  have h3 : (step c port s).extSat = extSaturated c port := rfl
  rw [h2, h1, h3]
  unfold nextChange
  rw [if_neg e]
  unfold changeHeat passageHeat
  rw [if_neg (not_lt.mpr hr.le)]
  generalize intSaturated c port u = b1
  generalize extSaturated c port = b2
  cases b1 <;> cases b2 <;> simp <;> ring

/-- Failure: into the stream the heat has the wrong sign.  Whenever there is a change of phase it is minus the heat of the
change of the compound that passes. -/
theorem c84_heat_reverse (c : Compound K) (port : ℕ → Port K) (s : State K) (u : ℕ) (hu : u = sourcePort port s.flux)
    (hr : (step c port s).rate < 0) :
    (step c port s).heat = if (step c port s).intSat = (step c port s).extSat then 0
      else -passageHeat c (-(step c port s).rate) (port 2).temp (step c port s).extSat := by
  have e : ¬ deltaP port (1 - u) * deltaP port u < 0 := by
    intro h
    have : (step c port s).rate = 0 := by
      change membraneRate c port s.flow (sourcePort port s.flux) = 0
      rw [← hu]
      unfold membraneRate
      rw [if_pos h]
    linarith
  have h1 : (step c port s).intSat = intSaturated c port u := by
    change nextIntSat c port s (sourcePort port s.flux) = _
    rw [← hu]
    unfold nextIntSat
    rw [if_neg e]
  have h2 : (step c port s).heat = if nextChange c port u = true then
      changeHeat c port (step c port s).rate (step c port s).intSat (step c port s).extSat u else 0 := by
    rw [hu]; rfl
  have h3 : (step c port s).extSat = extSaturated c port := rfl
  rw [h2, h1, h3]
  unfold nextChange
  rw [if_neg e]
  unfold changeHeat passageHeat
  rw [if_pos hr]
  generalize intSaturated c port u = b1
  generalize extSaturated c port = b2
  cases b1 <;> cases b2 <;> simp <;> ring

/-- The heat goes to the stream's downstream end if the compound leaves the stream, to the vent if it enters; all of it to
one of them, and none without a change. -/
theorem c84_heat_port (s : State K) (u : ℕ) :
    (s.change = false → heatFlows s u = [])
    ∧ (s.change = true → eps100 < s.rate → heatFlows s u = [(1 - u, s.heat)])
    ∧ (s.change = true → s.rate ≤ eps100 → heatFlows s u = [(2, s.heat)]) := by
  unfold heatFlows
  refine ⟨fun h => by simp [h], fun h h' => by simp [h, h'], fun h h' => by simp [h, not_lt.mpr h']⟩

/-- Failure: with the same partial pressure upstream and in the vent the downstream excess drives the flow, of any size, and
what flows out of the stream is taken from the upstream node whatever there is in it. -/
theorem c84_level (c : Compound K) (port : ℕ → Port K) (s : State K) (u d : ℕ)
    (hu : u = sourcePort port s.flux) (hd : d = 1 - u) (h0 : excess port u = 0) :
    (step c port s).rate = min (c.coeff * excess port d) (10 ^ 6) * health c
    ∧ (0 < (step c port s).rate → (step c port s).source u = -((step c port s).rate / c.weight) ∨ c.weight ≤ 0) := by
  have hs : (step c port s).rate = membraneRate c port s.flow u := by rw [hu]; rfl
  have hsrc : (step c port s).source = sourceVector ((step c port s).rate / c.weight) u := by rw [hu]; rfl
  have hu2 : u ≠ 2 := by
    have := sourcePort_le port s.flux
    omega
  constructor
  · rw [hs]
    unfold membraneRate
    rw [← hd, deltaP_eq, deltaP_eq, h0, mul_zero, if_neg (lt_irrefl _), degraded_eq]
    unfold drivingPort available
    have h1' : ¬ 0 < deltaP port u := by
      rw [deltaP_eq, h0]
      exact lt_irrefl _
    rw [if_neg h1', if_neg h1', deltaP_eq, ← hd, mul_comm c.coeff]
  · intro h
    by_cases hw : c.weight ≤ 0
    · exact Or.inr hw
    · left
      rw [hsrc]
      unfold sourceVector
      rw [if_neg hu2, if_pos (div_pos h (not_le.mp hw)), if_pos rfl]

/-- A compound at ℚ: saturated from 10 on in the vent and from 20 on in the stream, 2 kJ/kg. -/
private def water : Compound ℚ := ⟨1 / 10, none, 18, fun _ => 20, fun _ => 10, fun _ => 2⟩

/-- A port at ℚ. -/
private def at' (p x : ℚ) : Port ℚ := ⟨false, p, x, x, 300⟩

private def still : State ℚ := ⟨1, 1, 0, false, false, false, 0, fun _ => 0⟩

/-- Failure: a stream that brings none of the compound, into a node that has some, past a vent that has none: the upstream
and the vent pressure are both zero, and the membrane takes one kilogram a second of the compound from the upstream node. -/
theorem c84_grab :
    let port : ℕ → Port ℚ := fun i => if i = 1 then at' 100 (1 / 10) else at' 101 0
    excess port 0 = 0 ∧ (port 0).fraction = 0
      ∧ (step water port still).rate = 1 ∧ (step water port still).source 0 = -1 / 18
      ∧ compoundInto (transport port (step water port still) 28 (fun i => (port i).fraction)) 0 = -1 := by
  decide +kernel

/-- Failure: if the stream turns between the step and the transport, the moles leave one node and the mass another. -/
theorem c84_turn :
    let port : ℕ → Port ℚ := fun i => if i = 2 then at' 0 0 else at' 100 (1 / 2)
    let s := step water port ⟨1, 10, 0, false, false, false, 0, fun _ => 0⟩
    let t := { s with flux := -1 }
    s.source 0 < 0 ∧ s.source 1 = 0
      ∧ compoundInto (across (sourcePort port t.flux) t.rate (fun i => (port i).fraction)) 0 = 0
      ∧ compoundInto (across (sourcePort port t.flux) t.rate (fun i => (port i).fraction)) 1 < 0 := by
  decide +kernel

/-- Flow out of the stream below the limit, flow at the limit, flow into the stream with a change of phase, and the heat of
each. -/
example :
    let out : ℕ → Port ℚ := fun i => if i = 2 then at' 20 (1 / 10) else at' 100 (1 / 2)
    let back : ℕ → Port ℚ := fun i => if i = 2 then at' 120 (1 / 10) else at' 100 (1 / 100)
    let s : State ℚ := ⟨1, 100, 0, false, false, false, 0, fun _ => 0⟩
    (step water out s).rate = 48 / 10 ∧ (step water out { s with flow := 1 }).rate = 99 / 200
      ∧ (step water out s).heat = -9600 ∧ (step water back s).rate = -11 / 10
      ∧ (step water back s).change = true ∧ (step water back s).heat = 2200 := by
  decide +kernel

/-- The ground node is not the source as long as the other node is none either: a flow from port 1 of a link whose port 1 is on the
ground comes from port 0, and one from port 0 on the ground from port 1; else the flow's sign decides. -/
theorem c84_ground (port : ℕ → Port K) (x : K) :
    ((port 1).ground = true → (port 0).ground = false → sourcePort port x = 0) ∧
      ((port 0).ground = true → (port 1).ground = false → x ≠ 0 → sourcePort port x = 1) ∧
      ((port 0).ground = false → (port 1).ground = false → sourcePort port x = if x < 0 then 1 else 0) := by
  unfold sourcePort
  refine ⟨fun h1 h0 => ?_, fun h0 h1 hx => ?_, fun h0 h1 => ?_⟩
  · simp [h0, h1]
  · rcases lt_or_gt_of_ne hx with h | h
    · simp [h, h1]
    · simp [h, h0]
  · simp [h0, h1]

example : sourcePort (fun i => ({ ground := i == 1, pressure := 100, moles := 0, fraction := 0, temp := 290 } : Port ℚ)) (-1) = 0 := by decide +kernel

/-- The flux is the pressure drop times the conductance, and none for a drop that is lost in the larger pressure. -/
theorem c84_flux (p0 p1 g : K) :
    (|p0 - p1| < max p0 p1 * eps100 → computeFlux p0 p1 g = 0) ∧
      (max p0 p1 * eps100 ≤ |p0 - p1| → computeFlux p0 p1 g = (p0 - p1) * g ∧
        computeFlux p1 p0 g = -computeFlux p0 p1 g) := by
  refine ⟨fun h => by unfold computeFlux; rw [if_pos h], fun h => ?_⟩
  have h1 : computeFlux p0 p1 g = (p0 - p1) * g := by unfold computeFlux; rw [if_neg (not_lt.2 h)]
  have h2 : computeFlux p1 p0 g = (p1 - p0) * g := by
    unfold computeFlux
    rw [max_comm, abs_sub_comm, if_neg (not_lt.2 h)]
  exact ⟨h1, by rw [h1, h2]; ring⟩

example : computeFlux (100 : ℚ) 100 2 = 0 ∧ computeFlux (101 : ℚ) 100 2 = 2 := by decide +kernel

end Gunns.Props
