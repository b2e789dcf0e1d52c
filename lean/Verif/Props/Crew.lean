import Verif.Fluid.Crew
import Verif.Fluid.CrewLemmas
import Mathlib.Tactic.Linarith
import Mathlib.Tactic.FieldSimp
import Mathlib.Tactic.Ring

/-!
# C86: what a crew takes from a cabin and gives to it

The numbers of crew members in the states of activity stay non-negative under any requests, and a request between two states keeps the
crew's number.  The third metabolic link gives the cabin exactly what the crew makes, constituent by constituent, and never takes more
oxygen than there is.  The first two links give the same amounts times the ratio of the molecular weight of the cabin's fluid
to that of the crew's products of the pass before, and the first can ask for as much oxygen as there is once for every state.
-/

namespace Gunns.Props

open Gunns Gunns.Fluid Gunns.Crew
open Finset

set_option linter.unusedSectionVars false

variable {K : Type*} [Field K] [LinearOrder K] [IsStrictOrderedRing K]

/-- What `n` groups of crew members need or make at given rates of one member. -/
def c86need (n : Nat) (crew rate : Nat → K) : K := ∑ i ∈ range n, crew i * rate i

/-! ## The loops -/

private theorem summed_eq (n : Nat) (crew : Nat → K) (r : Rates K) :
    summed n crew r = { o2 := c86need n crew r.o2, co2 := c86need n crew r.co2, h2o := c86need n crew r.h2o,
                        heat := c86need n crew r.heat } := by
  unfold summed c86need
  induction n with
  | zero => simp [loop, Made.zero]
  | succ n ih =>
    simp only [loop, ih, sum_range_succ]

private theorem made1_eq (n : Nat) (crew : Nat → K) (r : Rates K) (a : K) :
    made1 n crew r a = { o2 := ∑ i ∈ range n, min a (crew i * r.o2 i), co2 := c86need n crew r.co2, h2o := c86need n crew r.h2o,
                         heat := c86need n crew r.heat } := by
  unfold made1 c86need
  induction n with
  | zero => simp [loop, Made.zero]
  | succ n ih =>
    simp only [loop, ih, sum_range_succ]

private theorem foldl_add (h : K) (xs : List (Nat × K)) (s : K) :
    xs.foldl (fun s e => s + h * e.2) s = s + (xs.map (fun e => h * e.2)).sum := by
  induction xs generalizing s with
  | nil => simp
  | cons e t ih => simp only [List.foldl_cons, List.map_cons, List.sum_cons, ih]; ring

private theorem net_eq (ids : Ids K) (h : K) (m : Made K) : net ids h m = ((bulk ids h m).map Prod.snd).sum := by
  unfold net bulk
  rw [foldl_add]
  simp only [List.map_cons, List.map_map, List.sum_cons]
  have : (Prod.snd ∘ fun e : Nat × K => (e.1, h * e.2)) = fun e : Nat × K => h * e.2 := by
    funext e; rfl
  rw [this]; ring

/-! ## The internal fluid -/

/-- The constituents are different ones of the fluid. -/
def c86Placed (ids : Ids K) (n : Nat) : Prop :=
  (ids.o2 :: ids.co2 :: ids.h2o :: ids.others.map Prod.fst).Nodup ∧
    ∀ i ∈ (ids.o2 :: ids.co2 :: ids.h2o :: ids.others.map Prod.fst), i < n

private theorem placed_keys (ids : Ids K) (h : K) (m : Made K) :
    (bulk ids h m).map Prod.fst = ids.o2 :: ids.co2 :: ids.h2o :: ids.others.map Prod.fst := by
  unfold bulk
  simp only [List.map_cons, List.map_map]
  rfl

/-- The fluid after the update: fractions of the net flow, and the molecular weight. -/
private theorem fluid_facts (c : Config K) (q : Pass K) (l : Link K) (hp : c86Placed c.ids l.fluid.n) (hd : dblEps < l.demand)
    (hn : l.demand = net c.ids (headcount c.n l.crew) l.made) :
    (∀ e ∈ bulk c.ids (headcount c.n l.crew) l.made,
        (((updateFluid c q l).1.fluid).parts e.1).massFraction = e.2 / l.demand) ∧
      (∀ i, i < l.fluid.n → i ∉ (c.ids.o2 :: c.ids.co2 :: c.ids.h2o :: c.ids.others.map Prod.fst) →
        (((updateFluid c q l).1.fluid).parts i).massFraction = 0) ∧
      (updateFluid c q l).1.fluid.mweight
        = l.demand / innerLimit dblEps (((bulk c.ids (headcount c.n l.crew) l.made).map
            (fun e => e.2 / l.fluid.mw e.1)).sum) ∧
      (updateFluid c q l).1.fluid.n = l.fluid.n ∧ (updateFluid c q l).1.fluid.mw = l.fluid.mw ∧
      (updateFluid c q l).2 = l.made.heat := by
  set b := bulk c.ids (headcount c.n l.crew) l.made with hb
  have hr : (resetState l.fluid).n = l.fluid.n := rfl
  have hrm : (resetState l.fluid).mw = l.fluid.mw := rfl
  have hkeys : b.map Prod.fst = c.ids.o2 :: c.ids.co2 :: c.ids.h2o :: c.ids.others.map Prod.fst := placed_keys _ _ _
  have hk : ∀ e ∈ b, e.1 < (resetState l.fluid).n := by
    intro e he
    rw [hr]
    apply hp.2
    rw [← hkeys]
    exact List.mem_map_of_mem he
  have hnd : (b.map Prod.fst).Nodup := by rw [hkeys]; exact hp.1
  have hsum : ∀ w : Nat → K, ∑ i ∈ range l.fluid.n, ((fill b (resetState l.fluid)).parts i).mass * w i
      = (b.map (fun e => e.2 * w e.1)).sum := by
    intro w
    have h1 := fill_sum b (resetState l.fluid) hk hnd w
    rw [hr] at h1
    rw [h1]
    have h2 : ∑ i ∈ range l.fluid.n, ((resetState l.fluid).parts i).mass * w i = 0 := by
      apply sum_eq_zero
      intro i hi
      rw [reset_mass _ _ (mem_range.1 hi), zero_mul]
    rw [h2, zero_add]
    congr 1
    apply List.map_congr_left
    intro e he
    rw [reset_mass _ _ (by have := hk e he; rwa [hr] at this), sub_zero]
  have hmass : total l.fluid.n (fun i => ((fill b (resetState l.fluid)).parts i).mass) = l.demand := by
    rw [total_eq_sum]
    have h1 := hsum (fun _ => 1)
    simp only [mul_one] at h1
    rw [h1, hn, net_eq]
  have hmol : total l.fluid.n (fun i => ((fill b (resetState l.fluid)).parts i).mass / l.fluid.mw i)
      = (b.map (fun e => e.2 / l.fluid.mw e.1)).sum := by
    rw [total_eq_sum]
    have h1 := hsum (fun i => (l.fluid.mw i)⁻¹)
    simp only [← div_eq_mul_inv] at h1
    exact h1
  have hu : updateFluid c q l = ({ l with
       fluid := { updateMass (fill b (resetState l.fluid)) with temperature := q.temperature } }, l.made.heat) := by
    unfold updateFluid
    rw [if_pos hd]
  rw [hu]
  have hfn : (fill b (resetState l.fluid)).n = l.fluid.n := by rw [fill_n, hr]
  have hfm : (fill b (resetState l.fluid)).mw = l.fluid.mw := by rw [fill_mw, hrm]
  have hinner : innerLimit dblEps l.demand = l.demand := innerLimit_of_ge hd.le
  have hfrac : ∀ i, i < l.fluid.n → ((updateMass (fill b (resetState l.fluid))).parts i).massFraction
      = ((fill b (resetState l.fluid)).parts i).mass / l.demand := by
    intro i hi
    unfold updateMass Poly.each
    simp only [hfn]
    rw [if_pos hi, hmass, hinner]
  refine ⟨?_, ?_, ?_, ?_, ?_, rfl⟩
  · intro e he
    have h1 : e.1 < l.fluid.n := by have := hk e he; rwa [hr] at this
    rw [hfrac _ h1, fill_mass_in b _ hk hnd e he]
  · intro i hi hno
    rw [← hkeys] at hno
    rw [hfrac _ hi, fill_mass_out b _ hk i hno, reset_mass _ _ hi, zero_div]
  · change (updateMass (fill b (resetState l.fluid))).mweight = _
    unfold updateMass Poly.each
    simp only [hfn, hfm]
    rw [hmass, hmol, hinner]
  · change (updateMass (fill b (resetState l.fluid))).n = _
    unfold updateMass Poly.each
    exact hfn
  · change (updateMass (fill b (resetState l.fluid))).mw = _
    unfold updateMass Poly.each
    exact hfm

/-! ## What the cabin is given -/

/-- The part of the demand a blockage leaves. -/
def c86open (q : Pass K) : K := 1 - q.block.getD 0

private theorem blocked_eq (q : Pass K) (d : K) : blocked q d = c86open q * d := by
  unfold blocked c86open
  cases q.block with
  | none => simp
  | some b => simp only [Option.getD_some]; ring

/-- The mass the crew adds to the cabin by unit time: carbon dioxide, water and the other constituents less the oxygen. -/
def c86net (c : Config K) (crew : Nat → K) (o2 co2 h2o : K) : K :=
  h2o + co2 - o2 + (c.ids.others.map (fun e => (∑ i ∈ range c.n, crew i) * e.2)).sum

private theorem net_spec (c : Config K) (crew : Nat → K) (m : Made K) :
    net c.ids (headcount c.n crew) m = c86net c crew m.o2 m.co2 m.h2o := by
  unfold net c86net headcount
  rw [foldl_add, total_eq_sum]

/-- The cabin gets `k` times what the crew makes: each constituent by itself, nothing else, and the heat. -/
def c86Gives (g : Given K) (c : Config K) (crew : Nat → K) (n : Nat) (k o2 co2 h2o heat : K) : Prop :=
  g.flow = k * c86net c crew o2 co2 h2o ∧
  g.rate c.ids.o2 = -(k * o2) ∧ g.rate c.ids.co2 = k * co2 ∧ g.rate c.ids.h2o = k * h2o ∧
  (∀ e ∈ c.ids.others, g.rate e.1 = k * ((∑ i ∈ range c.n, crew i) * e.2)) ∧
  (∀ i, i < n → i ∉ (c.ids.o2 :: c.ids.co2 :: c.ids.h2o :: c.ids.others.map Prod.fst) → g.rate i = 0) ∧
  g.heat = heat

private theorem gives (c : Config K) (q : Pass K) (l : Link K) (hp : c86Placed c.ids l.fluid.n) (hd : dblEps < l.demand)
    (hn : l.demand = c86net c l.crew l.made.o2 l.made.co2 l.made.h2o) (k : K) (g : Given K) (hf : g.flow = k * l.demand)
    (hfl : g.fluid = (updateFluid c q l).1.fluid) (hh : g.heat = (updateFluid c q l).2) :
    c86Gives g c l.crew l.fluid.n k l.made.o2 l.made.co2 l.made.h2o l.made.heat := by
  have hn' : l.demand = net c.ids (headcount c.n l.crew) l.made := by rw [net_spec]; exact hn
  obtain ⟨h1, h2, -, -, -, h3⟩ := fluid_facts c q l hp hd hn'
  have hne : l.demand ≠ 0 := (lt_trans dblEps_pos hd).ne'
  have hr : ∀ e ∈ bulk c.ids (headcount c.n l.crew) l.made, g.rate e.1 = k * e.2 := by
    intro e he
    unfold Given.rate
    rw [hf, hfl, h1 e he]
    field_simp
  have hc : headcount c.n l.crew = ∑ i ∈ range c.n, l.crew i := by unfold headcount; rw [total_eq_sum]
  refine ⟨by rw [hf, hn], ?_, ?_, ?_, ?_, ?_, by rw [hh, h3]⟩
  · have := hr (c.ids.o2, -l.made.o2) (by simp [bulk])
    rw [this]; ring
  · exact hr (c.ids.co2, l.made.co2) (by simp [bulk])
  · exact hr (c.ids.h2o, l.made.h2o) (by simp [bulk])
  · intro e he
    have := hr (e.1, headcount c.n l.crew * e.2) (by
      unfold bulk
      simp only [List.mem_cons]
      right; right; right
      exact List.mem_map.2 ⟨e, he, rfl⟩)
    rw [this, hc]
  · intro i hi hno
    unfold Given.rate
    rw [hfl, h2 i hi hno, mul_zero]

private theorem passed_of {x : K} (h : 100 * dblEps < |x|) : passed x = x := by
  unfold passed; rw [if_pos h]

private theorem update2_eq (c : Config K) (q : Pass K) (l : Link K) (hdt : dblEps ≤ q.dt) :
    update2 c q l = { l with
      made := made2 c.n l.crew c.rates c.bias q.avail
      demand := demand2 (c86net c l.crew (made2 c.n l.crew c.rates c.bias q.avail).o2
        (made2 c.n l.crew c.rates c.bias q.avail).co2 (made2 c.n l.crew c.rates c.bias q.avail).h2o) } := by
  unfold update2
  rw [if_neg (not_lt.2 hdt), net_spec]

private theorem update1_eq (c : Config K) (q : Pass K) (l : Link K) (hdt : dblEps ≤ q.dt) :
    update1 c q l = { l with
      made := made1 c.n l.crew c.rates q.avail
      demand := demand1 (c86net c l.crew (made1 c.n l.crew c.rates q.avail).o2
        (made1 c.n l.crew c.rates q.avail).co2 (made1 c.n l.crew c.rates q.avail).h2o) } := by
  unfold update1
  rw [if_neg (not_lt.2 hdt), net_spec]

private theorem made2_none (c : Config K) (crew : Nat → K) (a : K) (hb : c.bias = none) :
    made2 c.n crew c.rates c.bias a
      = { o2 := min a (c86need c.n crew c.rates.o2), co2 := c86need c.n crew c.rates.co2, h2o := c86need c.n crew c.rates.h2o,
          heat := c86need c.n crew c.rates.heat } := by
  rw [hb]
  unfold made2 biased
  simp only [summed_eq]

private theorem made2_some (c : Config K) (crew : Nat → K) (a : K) (b : Made K) (hb : c.bias.getD Made.zero = b) :
    made2 c.n crew c.rates c.bias a
      = { o2 := min a (c86need c.n crew c.rates.o2 + b.o2), co2 := c86need c.n crew c.rates.co2 + b.co2,
          h2o := c86need c.n crew c.rates.h2o + b.h2o, heat := c86need c.n crew c.rates.heat + b.heat } := by
  subst hb
  unfold made2 biased
  cases c.bias with
  | none => simp [summed_eq, Made.zero]
  | some b => simp only [summed_eq, Option.getD_some]

private theorem demand2_of {x : K} (h : dblEps < x) : demand2 x = x := by
  unfold demand2; rw [if_neg (not_le.2 h)]

private theorem demand1_of {x : K} (h : dblEps < x) : demand1 x = x := by
  unfold demand1
  rw [if_neg]
  rw [abs_of_pos (lt_trans dblEps_pos h)]
  exact not_le.2 h

/-- **The third link gives the cabin what the crew makes.**  When the crew adds mass to the cabin, the cabin loses the oxygen the crew
needs, or all it has in the time step if that is less, gains the crew's carbon dioxide, water and other constituents, each the sum over
the states, nothing else, all less the blockage, and the crew's heat, without the blockage. -/
theorem c86_third (c : Config K) (q : Pass K) (l : Link K) (hb : c.bias = none) (hp : c86Placed c.ids l.fluid.n)
    (hdt : dblEps ≤ q.dt)
    (hnet : dblEps < c86net c l.crew (min (q.x * q.mass / q.dt) (c86need c.n l.crew c.rates.o2))
      (c86need c.n l.crew c.rates.co2) (c86need c.n l.crew c.rates.h2o))
    (hflow : 100 * dblEps < |c86open q * c86net c l.crew (min (q.x * q.mass / q.dt) (c86need c.n l.crew c.rates.o2))
      (c86need c.n l.crew c.rates.co2) (c86need c.n l.crew c.rates.h2o)|) :
    c86Gives (pass3 c q l).2 c l.crew l.fluid.n (c86open q) (min (q.x * q.mass / q.dt) (c86need c.n l.crew c.rates.o2))
      (c86need c.n l.crew c.rates.co2) (c86need c.n l.crew c.rates.h2o) (c86need c.n l.crew c.rates.heat) := by
  have hu := update2_eq c q l hdt
  rw [made2_none c l.crew q.avail hb] at hu
  simp only [Pass.avail] at hu
  rw [demand2_of hnet] at hu
  have h := gives c q (update2 c q l) (by rw [hu]; exact hp) (by rw [hu]; exact hnet) (by rw [hu]) (c86open q) (pass3 c q l).2
    (by
      change passed (blocked q (update2 c q l).demand) = _
      rw [blocked_eq]
      apply passed_of
      rw [hu]; exact hflow) rfl rfl
  rw [hu] at h
  exact h

/-- **The second link gives the cabin that times a ratio of molecular weights**, with its bias or none: of the fluid that flows out of the cabin to the
internal fluid as the last pass left it; the heat is not changed. -/
theorem c86_second (c : Config K) (q : Pass K) (l : Link K) (b : Made K) (hb : c.bias.getD Made.zero = b) (hp : c86Placed c.ids l.fluid.n)
    (hdt : dblEps ≤ q.dt) (hw : dblEps < l.fluid.mweight)
    (hnet : dblEps < c86net c l.crew (min (q.x * q.mass / q.dt) (c86need c.n l.crew c.rates.o2 + b.o2))
      (c86need c.n l.crew c.rates.co2 + b.co2) (c86need c.n l.crew c.rates.h2o + b.h2o))
    (hflow : 100 * dblEps < |c86open q * (q.outWeight / l.fluid.mweight) *
      c86net c l.crew (min (q.x * q.mass / q.dt) (c86need c.n l.crew c.rates.o2 + b.o2))
      (c86need c.n l.crew c.rates.co2 + b.co2) (c86need c.n l.crew c.rates.h2o + b.h2o)|) :
    c86Gives (pass2 c q l).2 c l.crew l.fluid.n (c86open q * (q.outWeight / l.fluid.mweight))
      (min (q.x * q.mass / q.dt) (c86need c.n l.crew c.rates.o2 + b.o2))
      (c86need c.n l.crew c.rates.co2 + b.co2) (c86need c.n l.crew c.rates.h2o + b.h2o)
      (c86need c.n l.crew c.rates.heat + b.heat) := by
  have hu := update2_eq c q l hdt
  rw [made2_some c l.crew q.avail b hb] at hu
  simp only [Pass.avail] at hu
  rw [demand2_of hnet] at hu
  have hw' : dblEps < (update2 c q l).fluid.mweight := by rw [hu]; exact hw
  have h := gives c q (update2 c q l) (by rw [hu]; exact hp) (by rw [hu]; exact hnet) (by rw [hu])
    (c86open q * (q.outWeight / l.fluid.mweight)) (pass2 c q l).2
    (by
      change passed ((if dblEps < (update2 c q l).fluid.mweight then
        blocked q (update2 c q l).demand / (update2 c q l).fluid.mweight else 0) * q.outWeight) = _
      rw [if_pos hw', blocked_eq]
      have he : c86open q * (update2 c q l).demand / (update2 c q l).fluid.mweight * q.outWeight
          = c86open q * (q.outWeight / l.fluid.mweight) * (update2 c q l).demand := by
        have : (update2 c q l).fluid = l.fluid := by rw [hu]
        rw [this]; ring
      rw [he]
      apply passed_of
      rw [hu]; exact hflow) rfl rfl
  rw [hu] at h
  exact h

/-- **The first link does the same, and limits the oxygen of each state by all there is.** -/
theorem c86_first (c : Config K) (q : Pass K) (l : Link K) (hp : c86Placed c.ids l.fluid.n)
    (hdt : dblEps ≤ q.dt) (hw : dblEps < l.fluid.mweight)
    (hnet : dblEps < c86net c l.crew (∑ i ∈ range c.n, min (q.x * q.mass / q.dt) (l.crew i * c.rates.o2 i))
      (c86need c.n l.crew c.rates.co2) (c86need c.n l.crew c.rates.h2o))
    (hflow : 100 * dblEps < |c86open q * (q.outWeight / l.fluid.mweight) *
      c86net c l.crew (∑ i ∈ range c.n, min (q.x * q.mass / q.dt) (l.crew i * c.rates.o2 i))
      (c86need c.n l.crew c.rates.co2) (c86need c.n l.crew c.rates.h2o)|) :
    c86Gives (pass1 c q l).2 c l.crew l.fluid.n (c86open q * (q.outWeight / l.fluid.mweight))
      (∑ i ∈ range c.n, min (q.x * q.mass / q.dt) (l.crew i * c.rates.o2 i))
      (c86need c.n l.crew c.rates.co2) (c86need c.n l.crew c.rates.h2o) (c86need c.n l.crew c.rates.heat) := by
  have hu := update1_eq c q l hdt
  rw [made1_eq] at hu
  simp only [Pass.avail] at hu
  rw [demand1_of hnet] at hu
  have hw' : dblEps < (update1 c q l).fluid.mweight := by rw [hu]; exact hw
  have h := gives c q (update1 c q l) (by rw [hu]; exact hp) (by rw [hu]; exact hnet) (by rw [hu])
    (c86open q * (q.outWeight / l.fluid.mweight)) (pass1 c q l).2
    (by
      change passed ((if dblEps < (update1 c q l).fluid.mweight then
        blocked q (update1 c q l).demand / (update1 c q l).fluid.mweight else 0) * q.outWeight) = _
      rw [if_pos hw', blocked_eq]
      have he : c86open q * (update1 c q l).demand / (update1 c q l).fluid.mweight * q.outWeight
          = c86open q * (q.outWeight / l.fluid.mweight) * (update1 c q l).demand := by
        have : (update1 c q l).fluid = l.fluid := by rw [hu]
        rw [this]; ring
      rw [he]
      apply passed_of
      rw [hu]; exact hflow) rfl rfl
  rw [hu] at h
  exact h

/-- **The ratio stays wrong**: after a pass in which the crew adds mass, the internal fluid's molecular weight is that of what the crew
makes, the net mass over the net moles, whatever the cabin's fluid is. -/
theorem c86_weight (c : Config K) (q : Pass K) (l : Link K) (b : Made K) (hb : c.bias.getD Made.zero = b) (hp : c86Placed c.ids l.fluid.n)
    (hdt : dblEps ≤ q.dt)
    (hnet : dblEps < c86net c l.crew (min (q.x * q.mass / q.dt) (c86need c.n l.crew c.rates.o2 + b.o2))
      (c86need c.n l.crew c.rates.co2 + b.co2) (c86need c.n l.crew c.rates.h2o + b.h2o))
    (moles : K) (hm : moles = (c86need c.n l.crew c.rates.h2o + b.h2o) / l.fluid.mw c.ids.h2o
      + (c86need c.n l.crew c.rates.co2 + b.co2) / l.fluid.mw c.ids.co2
      - min (q.x * q.mass / q.dt) (c86need c.n l.crew c.rates.o2 + b.o2) / l.fluid.mw c.ids.o2
      + (c.ids.others.map (fun e => (∑ i ∈ range c.n, l.crew i) * e.2 / l.fluid.mw e.1)).sum)
    (hpos : dblEps ≤ moles) :
    (pass2 c q l).1.fluid.mweight
      = c86net c l.crew (min (q.x * q.mass / q.dt) (c86need c.n l.crew c.rates.o2 + b.o2))
          (c86need c.n l.crew c.rates.co2 + b.co2) (c86need c.n l.crew c.rates.h2o + b.h2o) / moles ∧
      (pass2 c q l).1.crew = l.crew ∧ (pass2 c q l).1.fluid.n = l.fluid.n ∧ (pass2 c q l).1.fluid.mw = l.fluid.mw := by
  have hu := update2_eq c q l hdt
  rw [made2_some c l.crew q.avail b hb] at hu
  simp only [Pass.avail] at hu
  rw [demand2_of hnet] at hu
  have hd : dblEps < (update2 c q l).demand := by rw [hu]; exact hnet
  obtain ⟨-, -, h1, h2, h3, -⟩ := fluid_facts c q (update2 c q l) (by rw [hu]; exact hp) hd (by rw [net_spec, hu])
  have hs : ((bulk c.ids (headcount c.n (update2 c q l).crew) (update2 c q l).made).map
      (fun e => e.2 / (update2 c q l).fluid.mw e.1)).sum = moles := by
    rw [hu, hm]
    unfold bulk headcount
    simp only [List.map_cons, List.map_map, List.sum_cons, total_eq_sum]
    have : ((fun e : Nat × K => e.2 / l.fluid.mw e.1) ∘ fun e : Nat × K => (e.1, (∑ i ∈ range c.n, l.crew i) * e.2))
        = fun e : Nat × K => (∑ i ∈ range c.n, l.crew i) * e.2 / l.fluid.mw e.1 := by
      funext e; rfl
    rw [this]; ring
  rw [hs, innerLimit_of_ge hpos] at h1
  refine ⟨?_, ?_, ?_, ?_⟩
  · change (updateFluid c q (update2 c q l)).1.fluid.mweight = _
    rw [h1, hu]
  · change (updateFluid c q (update2 c q l)).1.crew = _
    unfold updateFluid
    rw [if_pos hd, hu]
  · change (updateFluid c q (update2 c q l)).1.fluid.n = _
    rw [h2, hu]
  · change (updateFluid c q (update2 c q l)).1.fluid.mw = _
    rw [h3, hu]

/-! ## The oxygen there is -/

private theorem third_flow_zero (c : Config K) (q : Pass K) (l : Link K) (h : (update2 c q l).demand = 0) :
    (pass3 c q l).2.flow = 0 ∧ (pass3 c q l).2.heat = 0 := by
  constructor
  · change passed (blocked q (update2 c q l).demand) = 0
    rw [blocked_eq, h, mul_zero]
    unfold passed
    split <;> rfl
  · change (updateFluid c q (update2 c q l)).2 = 0
    unfold updateFluid
    rw [if_neg]
    rw [h]; exact not_lt.2 dblEps_pos.le

/-- **The third link never takes more oxygen than the cabin has**, in any pass, whatever its internal fluid held before. -/
theorem c86_third_oxygen (c : Config K) (q : Pass K) (l : Link K) (hb : c.bias = none) (hp : c86Placed c.ids l.fluid.n)
    (hdt : 0 < q.dt) (hx : 0 ≤ q.x * q.mass) (hblk : ∀ b, q.block = some b → 0 ≤ b ∧ b ≤ 1) :
    -((pass3 c q l).2.rate c.ids.o2) * q.dt ≤ q.x * q.mass := by
  have hzero : (pass3 c q l).2.flow = 0 → -((pass3 c q l).2.rate c.ids.o2) * q.dt ≤ q.x * q.mass := by
    intro h
    unfold Given.rate
    rw [h]; simpa using hx
  have hopen : 0 ≤ c86open q ∧ c86open q ≤ 1 := by
    unfold c86open
    cases hq : q.block with
    | none => simp
    | some b =>
      have := hblk b hq
      simp only [Option.getD_some]
      constructor <;> linarith
  by_cases h1 : q.dt < dblEps
  · apply hzero
    refine (third_flow_zero c q l ?_).1
    unfold update2
    rw [if_pos h1]
  · push Not at h1
    by_cases h2 : dblEps < c86net c l.crew (min (q.x * q.mass / q.dt) (c86need c.n l.crew c.rates.o2))
        (c86need c.n l.crew c.rates.co2) (c86need c.n l.crew c.rates.h2o)
    · by_cases h3 : 100 * dblEps < |c86open q * c86net c l.crew (min (q.x * q.mass / q.dt) (c86need c.n l.crew c.rates.o2))
        (c86need c.n l.crew c.rates.co2) (c86need c.n l.crew c.rates.h2o)|
      · obtain ⟨-, ho, -⟩ := c86_third c q l hb hp h1 h2 h3
        rw [ho, neg_neg]
        have hm : min (q.x * q.mass / q.dt) (c86need c.n l.crew c.rates.o2) ≤ q.x * q.mass / q.dt := min_le_left _ _
        have h4 : c86open q * min (q.x * q.mass / q.dt) (c86need c.n l.crew c.rates.o2) ≤ q.x * q.mass / q.dt := by
          have h5 : 0 ≤ q.x * q.mass / q.dt := div_nonneg hx hdt.le
          calc _ ≤ c86open q * (q.x * q.mass / q.dt) := mul_le_mul_of_nonneg_left hm hopen.1
            _ ≤ 1 * (q.x * q.mass / q.dt) := mul_le_mul_of_nonneg_right hopen.2 h5
            _ = _ := one_mul _
        calc _ ≤ q.x * q.mass / q.dt * q.dt := mul_le_mul_of_nonneg_right h4 hdt.le
          _ = _ := div_mul_cancel₀ _ hdt.ne'
      · apply hzero
        have hu := update2_eq c q l h1
        rw [made2_none c l.crew q.avail hb] at hu
        simp only [Pass.avail] at hu
        rw [demand2_of h2] at hu
        change passed (blocked q (update2 c q l).demand) = 0
        rw [blocked_eq, hu]
        unfold passed
        rw [if_neg h3]
    · apply hzero
      refine (third_flow_zero c q l ?_).1
      have hu := update2_eq c q l h1
      rw [made2_none c l.crew q.avail hb] at hu
      simp only [Pass.avail] at hu
      rw [hu]
      unfold demand2
      simp only
      rw [if_pos (not_lt.1 h2)]

/-- **What the first link takes for the crew's oxygen**: at least what the crew needs or all there is, at most what the crew needs
and at most all there is once for every state; exactly the need when that is there. -/
theorem c86_first_oxygen (n : Nat) (crew : Nat → K) (r : Rates K) (a : K) (ha : 0 ≤ a)
    (hc : ∀ i, i < n → 0 ≤ crew i * r.o2 i) :
    min a (c86need n crew r.o2) ≤ (made1 n crew r a).o2 ∧ (made1 n crew r a).o2 ≤ c86need n crew r.o2 ∧
      (made1 n crew r a).o2 ≤ n * a ∧ (c86need n crew r.o2 ≤ a → (made1 n crew r a).o2 = c86need n crew r.o2) := by
  rw [made1_eq]
  have hup : ∑ i ∈ range n, min a (crew i * r.o2 i) ≤ c86need n crew r.o2 := sum_le_sum fun i _ => min_le_right _ _
  have hlow : min a (c86need n crew r.o2) ≤ ∑ i ∈ range n, min a (crew i * r.o2 i) := by
    by_cases h : ∃ i ∈ range n, a ≤ crew i * r.o2 i
    · obtain ⟨i, hi, h⟩ := h
      calc _ ≤ a := min_le_left _ _
        _ = min a (crew i * r.o2 i) := (min_eq_left h).symm
        _ ≤ _ := single_le_sum (f := fun i => min a (crew i * r.o2 i))
          (fun j hj => le_min ha (hc j (mem_range.1 hj))) hi
    · push Not at h
      have : ∑ i ∈ range n, min a (crew i * r.o2 i) = c86need n crew r.o2 := by
        unfold c86need
        exact sum_congr rfl fun i hi => min_eq_right (h i hi).le
      rw [this]; exact min_le_right _ _
  refine ⟨hlow, hup, ?_, ?_⟩
  · calc ∑ i ∈ range n, min a (crew i * r.o2 i) ≤ ∑ _i ∈ range n, a := sum_le_sum fun i _ => min_le_left _ _
      _ = n * a := by rw [sum_const, card_range, nsmul_eq_mul]
  · intro h
    rw [min_eq_right h] at hlow
    exact le_antisymm hup hlow

/-- **All the oxygen once for every state**: when every state could use it all, the first link asks for `n` times what there is. -/
theorem c86_first_over (n : Nat) (crew : Nat → K) (r : Rates K) (a : K) (hc : ∀ i, i < n → a ≤ crew i * r.o2 i) :
    (made1 n crew r a).o2 = n * a := by
  rw [made1_eq]
  simp only
  calc ∑ i ∈ range n, min a (crew i * r.o2 i) = ∑ _i ∈ range n, a := sum_congr rfl fun i hi => min_eq_left (hc i (mem_range.1 hi))
    _ = n * a := by rw [sum_const, card_range, nsmul_eq_mul]

/-! ## When the crew adds no mass -/

/-- **The second and third links do nothing for a crew that adds no mass**: if what it makes does not outweigh the oxygen, no
constituent is exchanged and no heat is given. -/
theorem c86_silent (c : Config K) (q : Pass K) (l : Link K) (hdt : dblEps ≤ q.dt)
    (hnet : c86net c l.crew (made2 c.n l.crew c.rates c.bias q.avail).o2 (made2 c.n l.crew c.rates c.bias q.avail).co2
      (made2 c.n l.crew c.rates c.bias q.avail).h2o ≤ dblEps) :
    (∀ i, (pass3 c q l).2.rate i = 0) ∧ (pass3 c q l).2.heat = 0 ∧
      (∀ i, (pass2 c q l).2.rate i = 0) ∧ (pass2 c q l).2.heat = 0 := by
  have hd : (update2 c q l).demand = 0 := by
    rw [update2_eq c q l hdt]
    unfold demand2
    simp only
    rw [if_pos hnet]
  obtain ⟨h1, h2⟩ := third_flow_zero c q l hd
  refine ⟨fun i => by unfold Given.rate; rw [h1, zero_mul], h2, fun i => ?_, ?_⟩
  · have : (pass2 c q l).2.flow = 0 := by
      change passed ((if dblEps < (update2 c q l).fluid.mweight then
        blocked q (update2 c q l).demand / (update2 c q l).fluid.mweight else 0) * q.outWeight) = 0
      rw [blocked_eq, hd, mul_zero, zero_div, ite_self, zero_mul]
      unfold passed
      split <;> rfl
    unfold Given.rate
    rw [this, zero_mul]
  · change (updateFluid c q (update2 c q l)).2 = 0
    unfold updateFluid
    rw [if_neg]
    rw [hd]; exact not_lt.2 dblEps_pos.le

/-- **The first link moves the wrong fluid for a crew that takes more than it gives**: the internal fluid stays as it was, its old
mixture is what leaves the cabin, and no heat is given. -/
theorem c86_stale (c : Config K) (q : Pass K) (l : Link K) (hdt : dblEps ≤ q.dt) (hw : dblEps < l.fluid.mweight)
    (x : K) (hx : x = c86net c l.crew (made1 c.n l.crew c.rates q.avail).o2 (made1 c.n l.crew c.rates q.avail).co2
      (made1 c.n l.crew c.rates q.avail).h2o)
    (hnet : x < -dblEps) (hflow : 100 * dblEps < |c86open q * (q.outWeight / l.fluid.mweight) * x|) :
    (pass1 c q l).1.fluid = l.fluid ∧ (pass1 c q l).2.heat = 0 ∧
      ∀ i, (pass1 c q l).2.rate i = c86open q * (q.outWeight / l.fluid.mweight) * x * (l.fluid.parts i).massFraction := by
  have hu := update1_eq c q l hdt
  rw [← hx] at hu
  have hdem : demand1 x = x := by
    unfold demand1
    rw [if_neg]
    have : x < 0 := by have := dblEps_pos (K := K); linarith
    rw [abs_of_neg this]
    push Not
    linarith
  rw [hdem] at hu
  have hno : updateFluid c q (update1 c q l) = (update1 c q l, 0) := by
    unfold updateFluid
    rw [if_neg]
    rw [hu]
    simp only
    have := dblEps_pos (K := K)
    push Not
    linarith
  have hfl : (update1 c q l).fluid = l.fluid := by rw [hu]
  have hdm : (update1 c q l).demand = x := by rw [hu]
  refine ⟨?_, ?_, ?_⟩
  · change (updateFluid c q (update1 c q l)).1.fluid = _
    rw [hno, hfl]
  · change (updateFluid c q (update1 c q l)).2 = _
    rw [hno]
  · intro i
    have h1 : (pass1 c q l).2.flow = c86open q * (q.outWeight / l.fluid.mweight) * x := by
      change passed ((if dblEps < (update1 c q l).fluid.mweight then
        blocked q (update1 c q l).demand / (update1 c q l).fluid.mweight else 0) * q.outWeight) = _
      rw [if_pos (by rw [hfl]; exact hw), blocked_eq, hdm, hfl]
      have he : c86open q * x / l.fluid.mweight * q.outWeight = c86open q * (q.outWeight / l.fluid.mweight) * x := by ring
      rw [he]
      exact passed_of hflow
    have h2 : (pass1 c q l).2.fluid = l.fluid := by
      change (updateFluid c q (update1 c q l)).1.fluid = _
      rw [hno, hfl]
    unfold Given.rate
    rw [h1, h2]

/-- The first link's scale factors weigh the states. -/
theorem c86_scale (crew : Nat → K) (o2 co2 h2o heat s r e : K) :
    c86need 4 crew (scaled o2 co2 h2o heat s r e).o2 = o2 * (crew 0 + s * crew 1 + r * crew 2 + e * crew 3) ∧
    c86need 4 crew (scaled o2 co2 h2o heat s r e).co2 = co2 * (crew 0 + s * crew 1 + r * crew 2 + e * crew 3) ∧
    c86need 4 crew (scaled o2 co2 h2o heat s r e).h2o = h2o * (crew 0 + s * crew 1 + r * crew 2 + e * crew 3) ∧
    c86need 4 crew (scaled o2 co2 h2o heat s r e).heat = heat * (crew 0 + s * crew 1 + r * crew 2 + e * crew 3) := by
  unfold c86need scaled
  simp only [sum_range_succ, sum_range_zero]
  refine ⟨?_, ?_, ?_, ?_⟩ <;> · simp; ring

/-! ## Moving crew members -/

/-- How many a request moves: no more than there are in the state they leave. -/
def c86moved (n : Nat) (number : K) (a : Nat) (crew : Nat → K) : K := if a = n then number else min number (crew a)

private theorem sum_put (n : Nat) (a : Nat) (x : K) (crew : Nat → K) (ha : a < n) :
    ∑ i ∈ range n, put a x crew i = ∑ i ∈ range n, crew i + (x - crew a) := by
  have : ∀ i, put a x crew i = crew i + (if i = a then x - crew a else 0) := by
    intro i
    unfold put
    by_cases h : i = a
    · subst h; rw [if_pos rfl, if_pos rfl]; ring
    · rw [if_neg h, if_neg h, add_zero]
  simp only [this, sum_add_distrib]
  rw [sum_ite_eq' (range n) a, if_pos (mem_range.2 ha)]

/-- **A request moves crew members and loses none**: from non-negative numbers, a request for a non-negative number between states, or
from or to none, takes what is moved from the one, adds it to the other, leaves the rest and makes nothing negative; both kinds of link
do the same, and both reject a negative number. -/
theorem c86_transition (n : Nat) (number : K) (a b : Nat) (crew : Nat → K) (hc : ∀ i, 0 ≤ crew i) :
    transition1 n number a b crew = transition2 n number a b crew ∧
    (number < 0 → transition2 n number a b crew = crew) ∧
    (0 ≤ number →
      (∀ i, 0 ≤ transition2 n number a b crew i) ∧
      (∀ i, transition2 n number a b crew i = crew i
        - (if i = a ∧ a ≠ n then c86moved n number a crew else 0) + (if i = b ∧ b ≠ n then c86moved n number a crew else 0))) := by
  by_cases hn : number < 0
  · refine ⟨?_, ?_, fun h => absurd hn (not_lt.2 h)⟩
    · unfold transition1 transition2; rw [if_pos hn, if_pos hn]
    · intro _; unfold transition2; rw [if_pos hn]
  · push Not at hn
    have hm : 0 ≤ c86moved n number a crew ∧ (a ≠ n → c86moved n number a crew ≤ crew a) := by
      unfold c86moved
      by_cases h : a = n
      · rw [if_pos h]; exact ⟨hn, fun h' => absurd h h'⟩
      · rw [if_neg h]; exact ⟨le_min hn (hc a), fun _ => min_le_right _ _⟩
    have hmo : (if a ≠ n then min number (crew a) else number) = c86moved n number a crew := by
      unfold c86moved
      by_cases h : a = n
      · rw [if_pos h, if_neg (not_not.2 h)]
      · rw [if_neg h, if_pos h]
    have hval : ∀ i, transition2 n number a b crew i = crew i
        - (if i = a ∧ a ≠ n then c86moved n number a crew else 0)
        + (if i = b ∧ b ≠ n then c86moved n number a crew else 0) := by
      intro i
      unfold transition2
      rw [if_neg (not_lt.2 hn)]
      simp only [hmo]
      generalize c86moved n number a crew = m
      have hp : ∀ (k : Nat) (x : K) (f : Nat → K) (j : Nat), put k x f j = if j = k then x else f j := fun _ _ _ _ => rfl
      by_cases ha : a = n
      · by_cases hb : b = n
        · simp [ha, hb]
        · by_cases h2 : i = b <;> simp [ha, hb, hp, h2]
      · by_cases hb : b = n
        · by_cases h1 : i = a <;> simp [ha, hb, hp, h1]
        · by_cases h1 : i = a
          · by_cases h2 : a = b
            · simp [hb, hp, h1, h2]
            · simp [ha, hb, hp, h1, h2]
          · by_cases h2 : i = b
            · have h3 : b ≠ a := fun h => h1 (h2.trans h)
              simp [ha, hb, hp, h2, h3]
            · simp [ha, hb, hp, h1, h2]
    have hnn : ∀ i, 0 ≤ transition2 n number a b crew i := by
      intro i
      rw [hval i]
      have h0 := hc i
      have h3 : 0 ≤ (if i = b ∧ b ≠ n then c86moved n number a crew else 0) := by
        split
        · exact hm.1
        · exact le_refl _
      have h4 : (if i = a ∧ a ≠ n then c86moved n number a crew else 0) ≤ crew i := by
        split
        · rename_i h; rw [h.1]; exact hm.2 h.2
        · exact h0
      linarith
    refine ⟨?_, fun h => absurd h (not_lt.2 hn), fun _ => ⟨hnn, hval⟩⟩
    unfold transition1 transition2
    rw [if_neg (not_lt.2 hn), if_neg (not_lt.2 hn)]
    simp only [hmo]
    have e1 : (if a ≠ n then put a (max 0 (crew a - c86moved n number a crew)) crew else crew)
        = (if a ≠ n then put a (crew a - c86moved n number a crew) crew else crew) := by
      by_cases ha : a ≠ n
      · rw [if_pos ha, if_pos ha, max_eq_right (sub_nonneg.2 (hm.2 ha))]
      · rw [if_neg ha, if_neg ha]
    rw [e1]
    by_cases hb : b ≠ n
    · rw [if_pos hb, if_pos hb, max_eq_right]
      have : 0 ≤ (if a ≠ n then put a (crew a - c86moved n number a crew) crew else crew) b := by
        by_cases ha : a ≠ n
        · rw [if_pos ha]
          unfold put
          split
          · exact sub_nonneg.2 (hm.2 ha)
          · exact hc b
        · rw [if_neg ha]; exact hc b
      linarith [hm.1]
    · rw [if_neg hb, if_neg hb]

private theorem transition_sum (n : Nat) (number : K) (a b : Nat) (crew : Nat → K) (hc : ∀ i, 0 ≤ crew i) (ha : a < n) (hb : b < n) :
    ∑ i ∈ range n, transition2 n number a b crew i = ∑ i ∈ range n, crew i := by
  obtain ⟨-, h1, h2⟩ := c86_transition n number a b crew hc
  by_cases hn : number < 0
  · rw [h1 hn]
  · obtain ⟨-, hv⟩ := h2 (not_lt.1 hn)
    simp only [hv, sum_add_distrib, sum_sub_distrib, ha.ne, hb.ne, ne_eq, not_false_eq_true, and_true]
    rw [sum_ite_eq' (range n) a, sum_ite_eq' (range n) b, if_pos (mem_range.2 ha), if_pos (mem_range.2 hb)]
    ring

/-- **Over any requests** the numbers stay non-negative, both kinds of link agree, and the crew's number is kept when all requests are
between states. -/
theorem c86_moves (n : Nat) (ms : List (Move K)) (crew : Nat → K) (hc : ∀ i, 0 ≤ crew i) :
    (∀ i, 0 ≤ moves2 n ms crew i) ∧ moves1 n ms crew = moves2 n ms crew ∧
      ((∀ m ∈ ms, m.source < n ∧ m.target < n) → ∑ i ∈ range n, moves2 n ms crew i = ∑ i ∈ range n, crew i) := by
  induction ms generalizing crew with
  | nil => exact ⟨hc, rfl, fun _ => rfl⟩
  | cons m t ih =>
    obtain ⟨h0, h1, h2⟩ := c86_transition n m.number m.source m.target crew hc
    have hn : ∀ i, 0 ≤ transition2 n m.number m.source m.target crew i := by
      by_cases h : m.number < 0
      · rw [h1 h]; exact hc
      · exact (h2 (not_lt.1 h)).1
    obtain ⟨i1, i2, i3⟩ := ih (transition2 n m.number m.source m.target crew) hn
    refine ⟨i1, ?_, ?_⟩
    · change moves1 n t (transition1 n m.number m.source m.target crew) = moves2 n t (transition2 n m.number m.source m.target crew)
      rw [h0]; exact i2
    · intro hall
      have h := i3 (fun m' hm' => hall m' (List.mem_cons_of_mem _ hm'))
      change ∑ i ∈ range n, moves2 n t (transition2 n m.number m.source m.target crew) i = _
      rw [h]
      exact transition_sum n m.number m.source m.target crew hc (hall m List.mem_cons_self).1 (hall m List.mem_cons_self).2

/-! ## Examples -/

/-- A cabin's fluid: nitrogen, oxygen, carbon dioxide and water. -/
private def c86fluid : Poly ℚ :=
  { n := 4
    types := fun i => i
    mw := fun i => if i = 0 then 28 else if i = 1 then 32 else if i = 2 then 44 else 18
    parts := fun i =>
      { massFraction := if i = 0 then 3 / 4 else if i = 1 then 1 / 4 else 0
        moleFraction := 0, temperature := 290, pressure := 100, flowRate := 0, mass := 0, mole := 0 }
    temperature := 290
    pressure := 100
    flowRate := 0
    mass := 8
    mole := 0
    mweight := 29
    enthalpy := 0 }

/-- Two states; one crew member needs 2 of oxygen and makes 2 of carbon dioxide, 4 of water and 100 of heat. -/
private def c86config (bias : Option (Made ℚ)) : Config ℚ :=
  { n := 2
    rates := { o2 := fun _ => 2, co2 := fun _ => 2, h2o := fun _ => 4, heat := fun _ => 100 }
    ids := { o2 := 1, co2 := 2, h2o := 3, others := [] }
    bias := bias }

/-- The same with a crew member that makes no water and the given carbon dioxide. -/
private def c86dry (co2 : ℚ) : Config ℚ :=
  { n := 2
    rates := { o2 := fun _ => 2, co2 := fun _ => co2, h2o := fun _ => 0, heat := fun _ => 100 }
    ids := { o2 := 1, co2 := 2, h2o := 3, others := [] }
    bias := none }

/-- A pass of one second in a cabin with 2 of oxygen. -/
private def c86pass : Pass ℚ := { dt := 1, x := 1 / 4, mass := 8, temperature := 290, outWeight := 29, block := none }

/-- One crew member in the first state. -/
private def c86link : Link ℚ := { crew := fun i => if i = 0 then 1 else 0, made := Made.zero, demand := 0, fluid := c86fluid }

/-- **The second link takes oxygen that is not there**: one crew member who needs just what the cabin has takes it in the first pass; in
the next, with a cabin as before, more than all of it, as the products are lighter than the cabin's fluid; the third link takes what is
there both times. -/
theorem c86_second_over :
    ∃ (c : Config ℚ) (q : Pass ℚ) (l : Link ℚ), c86need c.n l.crew c.rates.o2 * q.dt = q.x * q.mass ∧
      -((pass2 c q l).2.rate c.ids.o2) * q.dt = q.x * q.mass ∧
      -((pass2 c q (pass2 c q l).1).2.rate c.ids.o2) * q.dt > 7 / 5 * (q.x * q.mass) ∧
      -((pass3 c q l).2.rate c.ids.o2) * q.dt = q.x * q.mass ∧
      -((pass3 c q (pass3 c q l).1).2.rate c.ids.o2) * q.dt = q.x * q.mass := by
  refine ⟨c86config none, c86pass, c86link, ?_, ?_, ?_, ?_, ?_⟩ <;> decide +kernel

/-- The hypotheses of `c86_third` and `c86_third_oxygen`, with half the flow blocked. -/
example : c86Gives (pass3 (c86config none) { c86pass with block := some (1 / 2) } c86link).2 (c86config none) c86link.crew 4
    (1 - 1 / 2) 2 2 4 100 := by
  have h := c86_third (c86config none) { c86pass with block := some (1 / 2) } c86link rfl
    ⟨by decide +kernel, by decide +kernel⟩ (by decide +kernel) (by decide +kernel) (by decide +kernel)
  have e1 : min (c86pass.x * c86pass.mass / c86pass.dt) (c86need (c86config none).n c86link.crew (c86config none).rates.o2) = 2 := by
    decide +kernel
  have e2 : c86need (c86config none).n c86link.crew (c86config none).rates.co2 = 2 := by decide +kernel
  have e3 : c86need (c86config none).n c86link.crew (c86config none).rates.h2o = 4 := by decide +kernel
  have e4 : c86need (c86config none).n c86link.crew (c86config none).rates.heat = 100 := by decide +kernel
  rw [show ({ c86pass with block := some (1 / 2) } : Pass ℚ).x = c86pass.x from rfl] at h
  simp only [e2, e3, e4] at h
  have e1' : min (c86pass.x * ({ c86pass with block := some (1 / 2) } : Pass ℚ).mass / ({ c86pass with block := some (1 / 2) } : Pass ℚ).dt)
      (c86need (c86config none).n c86link.crew (c86config none).rates.o2) = 2 := e1
  rw [e1'] at h
  exact h

/-- The hypotheses of `c86_second`, with a bias. -/
example : (pass2 (c86config (some { o2 := 0, co2 := 1, h2o := 0, heat := 0 })) { c86pass with outWeight := 58 } c86link).2.rate 2 = 6 := by
  have h := c86_second (c86config (some { o2 := 0, co2 := 1, h2o := 0, heat := 0 })) { c86pass with outWeight := 58 } c86link
    { o2 := 0, co2 := 1, h2o := 0, heat := 0 } rfl ⟨by decide +kernel, by decide +kernel⟩ (by decide +kernel) (by decide +kernel)
    (by decide +kernel) (by decide +kernel)
  have e : c86open ({ c86pass with outWeight := 58 } : Pass ℚ) * (58 / c86link.fluid.mweight)
      * (c86need 2 c86link.crew (fun _ => 2) + 1) = 6 := by decide +kernel
  exact h.2.2.1.trans e

/-- The hypotheses of `c86_first`. -/
example : (pass1 (c86config none) c86pass c86link).2.rate 1 = -2 := by
  have h := c86_first (c86config none) c86pass c86link ⟨by decide +kernel, by decide +kernel⟩ (by decide +kernel) (by decide +kernel)
    (by decide +kernel) (by decide +kernel)
  have e : -(c86open c86pass * (c86pass.outWeight / c86link.fluid.mweight) *
      ∑ i ∈ range (c86config none).n, min (c86pass.x * c86pass.mass / c86pass.dt) (c86link.crew i * (c86config none).rates.o2 i)) = -2 := by
    decide +kernel
  exact h.2.1.trans e

/-- The hypotheses of `c86_weight`. -/
example : (pass2 (c86config none) c86pass c86link).1.fluid.mweight = 4 / (4 / 18 + 2 / 44 - 2 / 32) := by
  have h := (c86_weight (c86config none) c86pass c86link Made.zero rfl ⟨by decide +kernel, by decide +kernel⟩ (by decide +kernel)
    (by decide +kernel) _ rfl (by decide +kernel)).1
  rw [h]
  decide +kernel

/-- Two states that could each use all the oxygen: the first link asks for it twice. -/
example : (made1 2 (fun _ => (1 : ℚ)) { o2 := fun _ => 2, co2 := fun _ => 2, h2o := fun _ => 4, heat := fun _ => 100 } 2).o2 = 4 := by
  rw [c86_first_over _ _ _ _ (by intro i _; norm_num)]; norm_num

/-- A crew that makes only as much carbon dioxide as it takes oxygen exchanges nothing with the second and third links. -/
example : (pass3 (c86dry 2)
    c86pass c86link).2.heat = 0 :=
  (c86_silent (c86dry 2) c86pass c86link (by decide +kernel) (by decide +kernel)).2.1

/-- A crew that makes less: the first link takes nitrogen. -/
example : (pass1 (c86dry 1)
    c86pass c86link).2.rate 0 = -3 / 4 := by
  have h := (c86_stale (c86dry 1)
    c86pass c86link (by decide +kernel) (by decide +kernel) _ rfl (by decide +kernel) (by decide +kernel)).2.2 0
  rw [h]
  decide +kernel

/-- A crew of three: two go to sleep, although five are asked for, and one joins those awake. -/
example : moves2 4 [⟨5, 0, 1⟩, ⟨1, 4, 0⟩] (fun i => if i = 0 then (2 : ℚ) else if i = 1 then 1 else 0) 1 = 3 ∧
    moves2 4 [⟨5, 0, 1⟩, ⟨1, 4, 0⟩] (fun i => if i = 0 then (2 : ℚ) else if i = 1 then 1 else 0) 0 = 1 := by
  decide +kernel

end Gunns.Props
