import Verif.Fluid.ReactorSetup
import Mathlib.Data.Rat.Cast.Order

/-!
# C57: chemical reactors consume and produce in proportion

A reactor of any number of compounds and reactions, in any order and sharing compounds: every reaction consumes and
produces moles in its fixed proportions, so atoms are neither made nor lost; it never consumes more than there is;
what flows on downstream is what came in with what was produced; over any number of updates the solid compounds change
by what was produced.

Not so: mass, for reactions of the table whose rounded weights do not add up; the sign of the heat when the flow is
reversed; and the source that the solver sees, when the flow stops.
-/

set_option linter.unusedSectionVars false

namespace Gunns.Props

open Gunns Gunns.Fluid Finset

variable {K : Type _} [Field K] [LinearOrder K] [IsStrictOrderedRing K]
variable {eff : Reaction K → (Nat → Compound K) → K}

/-- One reaction: there is a number of runs, not negative, by which all masses change in proportion; at most the
efficiency's share of the reactant and 99.99% of either compound are consumed, and one of the two limits is reached;
the heat is that of these runs. -/
theorem c57_stoichiometry {n : Nat} {r : Reaction K} {c : Nat → Compound K} (hr : ProperReaction n r)
    (hc : ProperCompounds n c) (he : 0 ≤ eff r c) :
    ∃ runs : K, 0 ≤ runs ∧
      (∀ k, (reactOnce eff c r k).mass = (c k).mass + runs * stoich r k * (c k).weight) ∧
      runs * r.nReactant * (c r.reactant).weight ≤ (c r.reactant).total * min (9999 / 10000) (eff r c) ∧
      runs * r.nReagent * (c r.reagent).weight ≤ (c r.reagent).total * (9999 / 10000) ∧
      (runs * r.nReactant * (c r.reactant).weight = (c r.reactant).total * min (9999 / 10000) (eff r c) ∨
        runs * r.nReagent * (c r.reagent).weight = (c r.reagent).total * (9999 / 10000)) ∧
      (0 < r.nProduct1 → reactHeat eff c r = runs * r.heat * 1000000) := by
  obtain ⟨h0, h1, h2, h3⟩ := reagent_bounds hr hc he
  refine ⟨extent eff r c, h0, ?_, by rw [mul_assoc]; exact h1, by rw [mul_assoc]; exact h2, ?_, ?_⟩
  · intro k; rw [reactOnce_mass hr hc, mul_assoc]
  · rw [mul_assoc, mul_assoc]; exact h3
  · intro hp
    have hw := (hc.weight _ hr.product1).ne'
    have hp' := hp.ne'
    unfold reactHeat
    unfold extent
    have hg := (hc.weight _ hr.reagent).ne'
    have hn := hr.nReagent.ne'
    field_simp

/-- The heat of an update is that of its reactions, one after the other, each with the compounds the ones before have
left: no reaction gives none, and one more adds its own. Nothing is left of the heat of the update before. -/
theorem c57_heat_sum (s : Reactor K) :
    (react eff { s with reactions := [] }).heat = 0 ∧
    ∀ l r, (react eff { s with reactions := l ++ [r] }).heat =
        (react eff { s with reactions := l }).heat + reactHeat eff (react eff { s with reactions := l }).comp r ∧
      (react eff { s with reactions := l ++ [r] }).comp = reactOnce eff (react eff { s with reactions := l }).comp r := by
  refine ⟨rfl, fun l r => ?_⟩
  unfold react
  simp only [List.foldl_append, List.foldl_cons, List.foldl_nil, and_self]

/-- Whatever every reaction keeps per mole, an update keeps: atoms of an element, or mass if the weights add up. -/
theorem c57_elements {s : Reactor K} (hs : ProperReactor eff s) (p : Passage K) (hx : ∀ i, 0 ≤ p.x i) (a : Nat → K)
    (hb : ∀ r ∈ s.reactions, Balances s.n a r) :
    ∑ k ∈ range s.n, produced eff s p k / (s.comp k).weight * a k = 0 := by
  unfold produced
  by_cases h : reacts p.dt p.flow
  · simp only [if_pos h]
    rw [(update_comp (eff := eff) p.dt p.flow p.x s).1, if_pos h]
    have hc := input_proper (flow := p.flow) hs hx (dblEps_pos.le.trans h.2.le)
    have := reactAll_balance hs.reactions hs.efficiency hc hb
    have hw : ∀ k, ((inputFromAtmosphere p.dt p.flow p.x (cleared s)).comp k).weight = (s.comp k).weight :=
      fun k => (input_same p.dt p.flow p.x (cleared s) k).1
    simp only [hw] at this
    rw [this]
    refine Finset.sum_eq_zero (fun k hk => ?_)
    rw [(input_values p.dt p.flow p.x (cleared s) (j := k) (mem_range.1 hk)).1, zero_div, zero_mul]
  · simp only [if_neg h]
    simp

/-- No compound becomes negative; of a fluid no more is consumed than flows in, of a solid no more than there is. -/
theorem c57_available {s : Reactor K} (hs : ProperReactor eff s) (p : Passage K) (hx : ∀ i, 0 ≤ p.x i) {k : Nat}
    (hk : k < s.n) (h : reacts p.dt p.flow) :
    0 ≤ ((updateFluid eff p.dt p.flow p.x s).comp k).total ∧
    (∀ i, (s.comp k).index = some i → -(p.x i * |p.flow| * p.dt) ≤ produced eff s p k) ∧
    ((s.comp k).index = none → -(s.comp k).total ≤ produced eff s p k) := by
  have h0 := (update_proper (dt := p.dt) (flow := p.flow) hs hx).compounds.total k
    (by rw [(update_comp (eff := eff) p.dt p.flow p.x s).2.1]; exact hk)
  have hc := input_proper (flow := p.flow) hs hx (dblEps_pos.le.trans h.2.le)
  obtain ⟨l, hl0, -, hl⟩ := reactAll_total hs.reactions hs.efficiency hc hk
  obtain ⟨i1, i2⟩ := input_values p.dt p.flow p.x (cleared s) (j := k) hk
  rw [i1] at hl
  have hprod : produced eff s p k =
      (reactAll eff (inputFromAtmosphere p.dt p.flow p.x (cleared s)).comp s.reactions k).mass := by
    unfold produced
    rw [if_pos h, (update_comp (eff := eff) p.dt p.flow p.x s).1, if_pos h]
  rw [(update_comp (eff := eff) p.dt p.flow p.x s).1, if_pos h] at h0 ⊢
  refine ⟨h0, ?_, ?_⟩
  · intro i hi
    have i3 : ((inputFromAtmosphere p.dt p.flow p.x (cleared s)).comp k).total = p.x i * |p.flow| * p.dt := by
      rw [i2]
      show (match (s.comp k).index with
        | some i => p.x i * |p.flow| * p.dt | none => (s.comp k).total) = _
      rw [hi]
    rw [i3] at hl
    rw [hprod]
    linarith
  · intro hi
    have i3 : ((inputFromAtmosphere p.dt p.flow p.x (cleared s)).comp k).total = (s.comp k).total := by
      rw [i2]
      show (match (s.comp k).index with
        | some i => p.x i * |p.flow| * p.dt | none => (s.comp k).total) = _
      rw [hi]
    rw [i3] at hl
    rw [hprod]
    linarith

/-- Over any number of updates a solid changes by what was produced of it, less at most `DBL_EPSILON` for each reaction
and update. -/
theorem c57_solids {s : Reactor K} (hs : ProperReactor eff s) (ps : List (Passage K)) (hx : ∀ p ∈ ps, ∀ i, 0 ≤ p.x i)
    {k : Nat} (hk : k < s.n) (hi : (s.comp k).index = none) :
    ∃ l : K, 0 ≤ l ∧ l ≤ dblEps * s.reactions.length * ps.length ∧
      ((passAll eff s ps).comp k).total = (s.comp k).total + producedAll eff s ps k - l := by
  induction ps generalizing s with
  | nil => exact ⟨0, le_rfl, by simp, by simp [passAll, producedAll]⟩
  | cons p ps ih =>
    obtain ⟨u1, u2, u3, -, -⟩ := update_comp (eff := eff) p.dt p.flow p.x s
    obtain ⟨l, h0, h1, h2⟩ := ih (update_proper (dt := p.dt) (flow := p.flow) hs (hx p List.mem_cons_self))
      (fun q hq => hx q (List.mem_cons_of_mem _ hq)) (by rw [u2]; exact hk)
      (by rw [(update_weight (eff := eff) p.dt p.flow p.x s k).2]; exact hi)
    have hstep : ∃ m : K, 0 ≤ m ∧ m ≤ dblEps * s.reactions.length ∧
        ((updateFluid eff p.dt p.flow p.x s).comp k).total = (s.comp k).total + produced eff s p k - m := by
      by_cases h : reacts p.dt p.flow
      · have hc := input_proper (flow := p.flow) hs (hx p List.mem_cons_self) (dblEps_pos.le.trans h.2.le)
        obtain ⟨m, hm0, hm1, hm⟩ := reactAll_total hs.reactions hs.efficiency hc hk
        obtain ⟨i1, i2⟩ := input_values p.dt p.flow p.x (cleared s) (j := k) hk
        refine ⟨m, hm0, hm1, ?_⟩
        unfold produced
        rw [if_pos h, u1, if_pos h, hm, i1, i2]
        show (match (s.comp k).index with
          | some i => p.x i * |p.flow| * p.dt | none => (s.comp k).total) + _ - m = _
        rw [hi]
        ring
      · refine ⟨0, le_rfl, mul_nonneg dblEps_pos.le (Nat.cast_nonneg _), ?_⟩
        unfold produced
        rw [if_neg h, u1, if_neg h]
        ring
    obtain ⟨m, hm0, hm1, hm⟩ := hstep
    refine ⟨l + m, add_nonneg h0 hm0, ?_, ?_⟩
    · rw [u3] at h1
      rw [List.length_cons, Nat.cast_add, Nat.cast_one, mul_add, mul_one]
      exact add_le_add h1 hm1
    · show ((passAll eff (updateFluid eff p.dt p.flow p.x s) ps).comp k).total = _ +
        (produced eff s p k + producedAll eff (updateFluid eff p.dt p.flow p.x s) ps k) - _
      rw [h2, hm]
      ring

/-- Over any number of updates, too, whatever every reaction keeps per mole is kept. -/
theorem c57_elements_all {s : Reactor K} (hs : ProperReactor eff s) (ps : List (Passage K))
    (hx : ∀ p ∈ ps, ∀ i, 0 ≤ p.x i) (a : Nat → K) (hb : ∀ r ∈ s.reactions, Balances s.n a r) :
    ∑ k ∈ range s.n, producedAll eff s ps k / (s.comp k).weight * a k = 0 := by
  induction ps generalizing s with
  | nil => simp [producedAll]
  | cons p ps ih =>
    obtain ⟨-, u2, u3, -, -⟩ := update_comp (eff := eff) p.dt p.flow p.x s
    have h1 := ih (update_proper (dt := p.dt) (flow := p.flow) hs (hx p List.mem_cons_self))
      (fun q hq => hx q (List.mem_cons_of_mem _ hq)) (by rw [u2, u3]; exact hb)
    rw [u2] at h1
    simp only [fun k => (update_weight (eff := eff) p.dt p.flow p.x s k).1] at h1
    have h2 := c57_elements hs p (hx p List.mem_cons_self) a hb
    simp only [producedAll, add_div, add_mul, Finset.sum_add_distrib]
    rw [h2, h1, add_zero]

/-- The atoms in the solids and those given to the fluid balance, to `DBL_EPSILON` of mass of each solid for each
reaction and update. -/
theorem c57_inventory {s : Reactor K} (hs : ProperReactor eff s) (ps : List (Passage K))
    (hx : ∀ p ∈ ps, ∀ i, 0 ≤ p.x i) (a : Nat → K) (hb : ∀ r ∈ s.reactions, Balances s.n a r) :
    |∑ k ∈ range s.n, (if (s.comp k).index = none then ((passAll eff s ps).comp k).total - (s.comp k).total
        else producedAll eff s ps k) / (s.comp k).weight * a k| ≤
      dblEps * s.reactions.length * ps.length * ∑ k ∈ range s.n, |a k| / (s.comp k).weight := by
  have h0 := c57_elements_all hs ps hx a hb
  rw [← sub_zero (∑ k ∈ range s.n, _), ← h0, ← Finset.sum_sub_distrib, Finset.mul_sum]
  refine (Finset.abs_sum_le_sum_abs _ _).trans (Finset.sum_le_sum (fun k hk => ?_))
  have hk' := mem_range.1 hk
  have hw := hs.compounds.weight k hk'
  have hB : (0 : K) ≤ dblEps * s.reactions.length * ps.length :=
    mul_nonneg (mul_nonneg dblEps_pos.le (Nat.cast_nonneg _)) (Nat.cast_nonneg _)
  by_cases hi : (s.comp k).index = none
  · obtain ⟨l, l0, l1, l2⟩ := c57_solids hs ps hx hk' hi
    rw [if_pos hi, l2]
    have : ((s.comp k).total + producedAll eff s ps k - l - (s.comp k).total) / (s.comp k).weight * a k -
        producedAll eff s ps k / (s.comp k).weight * a k = -(l * (a k / (s.comp k).weight)) := by ring
    rw [this, abs_neg, abs_mul, abs_of_nonneg l0, abs_div, abs_of_pos hw]
    exact mul_le_mul_of_nonneg_right l1 (div_nonneg (abs_nonneg _) hw.le)
  · rw [if_neg hi, sub_self, abs_zero]
    exact mul_nonneg hB (div_nonneg (abs_nonneg _) hw.le)

/-- What flows to the node downstream: of every constituent what flowed in, with what was produced of it, if that is
more than `DBL_EPSILON`, and if the flows of products and reactants are more than the limit for flows. -/
theorem c57_delivery {s : Reactor K} (hs : ProperReactor eff s) (p : Passage K) (hx : ∀ i, 0 ≤ p.x i)
    (hplaced : Placed s) (internal : Poly K) (hf : ∀ i, (internal.parts i).massFraction = p.x i)
    (h : reacts p.dt p.flow)
    (hP : (updateFluid eff p.dt p.flow p.x s).productsFlow = 0 ∨
      limit100 < (updateFluid eff p.dt p.flow p.x s).productsFlow)
    (hR : (updateFluid eff p.dt p.flow p.x s).reactantsFlow = 0 ∨
      (updateFluid eff p.dt p.flow p.x s).reactantsFlow < -limit100)
    {k i : Nat} (hk : k < s.n) (hi : (s.comp k).index = some i) :
    received (deliver internal |p.flow| (updateFluid eff p.dt p.flow p.x s)) i * p.dt =
      p.x i * |p.flow| * p.dt + (if dblEps < |produced eff s p k| then produced eff s p k else 0) ∧
    0 ≤ received (deliver internal |p.flow| (updateFluid eff p.dt p.flow p.x s)) i := by
  have heps : (0 : K) < dblEps := dblEps_pos
  have hdt : 0 < p.dt := heps.trans h.2
  obtain ⟨t, ht⟩ : ∃ t, t = react eff (inputFromAtmosphere p.dt p.flow p.x (cleared s)) := ⟨_, rfl⟩
  have hup : updateFluid eff p.dt p.flow p.x s = outputToAtmosphere p.dt t := by
    unfold updateFluid
    rw [if_pos h, ht]
    rfl
  have hidx : ∀ j, (t.comp j).index = (s.comp j).index := by
    intro j
    rw [ht, react_comp]
    exact (reactAll_same eff _ _ j).2.trans (input_same p.dt p.flow p.x (cleared s) j).2
  have htn : t.n = s.n := by rw [ht]; rfl
  have htp : t.products = resetState s.products := by rw [ht]; rfl
  have htr : t.reactants = resetState s.reactants := by rw [ht]; rfl
  have hpn : t.products.n = s.products.n := by rw [htp]; rfl
  have hrn : t.reactants.n = s.reactants.n := by rw [htr]; rfl
  have hpl : Placed t := by
    refine ⟨?_, ?_, ?_⟩
    · intro j i hj hji; rw [hpn]; rw [htn] at hj; rw [hidx] at hji; exact hplaced.products j i hj hji
    · intro j i hj hji; rw [hrn]; rw [htn] at hj; rw [hidx] at hji; exact hplaced.reactants j i hj hji
    · intro j l i hj hl hji hli
      rw [htn] at hj hl; rw [hidx] at hji hli
      exact hplaced.distinct j l i hj hl hji hli
  obtain ⟨-, -, o3, o4⟩ := output_rates (dt := p.dt) hpl (by rw [ht]; rfl) (by rw [ht]; rfl)
    (by
      intro j hj
      rw [htp] at hj ⊢
      show ((Poly.each _ _).parts j).mass = 0
      rw [each_parts (by exact hj)])
    (by
      intro j hj
      rw [htr] at hj ⊢
      show ((Poly.each _ _).parts j).mass = 0
      rw [each_parts (by exact hj)])
  have hprod : produced eff s p k = (t.comp k).mass := by
    unfold produced
    rw [if_pos h, hup, (output_comp p.dt t).1]
  have hav := (c57_available hs p hx hk h).2.1 i hi
  have hone : ∀ v : Nat → K, ∑ j ∈ range t.n, (if (t.comp j).index = some i then v j else 0) = v k := by
    intro v
    rw [Finset.sum_eq_single k]
    · rw [if_pos (by rw [hidx]; exact hi)]
    · intro j hj hjk
      rw [if_neg]
      intro e
      rw [hidx] at e
      exact hjk (hplaced.distinct j k i (by rw [← htn]; exact mem_range.1 hj) hk e hi)
    · intro hn; exact absurd (mem_range.2 (by rw [htn]; exact hk)) hn
  have q3 := o3 i (by rw [hpn]; exact hplaced.products k i hk hi)
  have q4 := o4 i (by rw [hrn]; exact hplaced.reactants k i hk hi)
  rw [hone] at q3 q4
  have hrec : received (deliver internal |p.flow| (updateFluid eff p.dt p.flow p.x s)) i =
      |p.flow| * p.x i + emits t k / p.dt + draws t k / p.dt := by
    rw [hup] at hP hR ⊢
    have hl : (0 : K) < limit100 := by unfold limit100; exact mul_pos (by norm_num) heps
    have e1 : ∀ (b : Prop) [Decidable b] (x : Collect K), inflows (if b then [x] else []) =
        if b then inflows [x] else [] := by intro b _ x; split_ifs <;> rfl
    unfold received deliver inflows
    rw [List.filterMap_append, List.filterMap_append, List.map_append, List.map_append, List.sum_append,
      List.sum_append]
    congr 1
    · congr 1
      · simp [hf]
      · rcases hP with g | g
        · rw [if_neg (by rw [g]; exact not_lt.2 hl.le), ← q3, g]; simp
        · rw [if_pos g, ← q3]; simp
    · rcases hR with g | g
      · rw [if_neg (by rw [g]; linarith), ← q4, g]; simp
      · rw [if_pos g, ← q4]; simp
  have hed : emits t k + draws t k = if dblEps < |produced eff s p k| then produced eff s p k else 0 := by
    rw [hprod]
    have hs : (t.comp k).index.isSome := by rw [hidx, hi]; rfl
    unfold emits draws
    by_cases a : dblEps < (t.comp k).mass
    · rw [if_pos ⟨hs, a⟩, if_neg (fun c => by linarith [c.2]), if_pos (lt_of_lt_of_le a (le_abs_self _)), add_zero]
    · rw [if_neg (fun c => a c.2), zero_add]
      by_cases b : (t.comp k).mass < -dblEps
      · rw [if_pos ⟨hs, b⟩, if_pos (by rw [lt_abs]; right; linarith)]
      · rw [if_neg (fun c => b c.2), if_neg]
        rw [lt_abs]
        rintro (c | c)
        · exact a c
        · exact b (by linarith)
  have hmain : received (deliver internal |p.flow| (updateFluid eff p.dt p.flow p.x s)) i * p.dt =
      p.x i * |p.flow| * p.dt + (if dblEps < |produced eff s p k| then produced eff s p k else 0) := by
    have hdt' := hdt.ne'
    rw [hrec, ← hed]
    field_simp
    ring
  refine ⟨hmain, ?_⟩
  have hnn : 0 ≤ received (deliver internal |p.flow| (updateFluid eff p.dt p.flow p.x s)) i * p.dt := by
    rw [hmain]
    have := mul_nonneg (mul_nonneg (hx i) (abs_nonneg p.flow)) hdt.le
    split_ifs
    · linarith
    · linarith
  exact nonneg_of_mul_nonneg_left hnn hdt

/-- The efficiency is the user's if there is one and else the reaction's, or the one of the temperature for a hot reactor,
from 0 to 1; it is multiplied by the mass of the reagent times the user's efficiency for it, if there is one. The
efficiencies of both kinds of reactor are not negative. -/
theorem c57_efficiency {n : Nat} {r : Reaction K} (hr : ProperReaction n r) (h : 0 ≤ r.efficiency) {c : Nat → Compound K}
    (hc : ProperCompounds n c) (bias scale temperature : K) :
    (dblEps < r.userReactant → r.userReagent ≤ dblEps → computeEfficiency r c = r.userReactant) ∧
    (r.userReactant ≤ dblEps → r.userReagent ≤ dblEps → computeEfficiency r c = r.efficiency) ∧
    (dblEps < r.userReactant → dblEps < r.userReagent →
      computeEfficiency r c = r.userReactant * r.userReagent * (c r.reagent).total) ∧
    (r.userReactant ≤ dblEps → dblEps < r.userReagent →
      computeEfficiency r c = r.efficiency * r.userReagent * (c r.reagent).total) ∧
    (0 ≤ bias + scale * temperature → bias + scale * temperature ≤ 1 → r.userReagent ≤ dblEps →
      hotEfficiency bias scale temperature r c = bias + scale * temperature) ∧
    0 ≤ computeEfficiency r c ∧ 0 ≤ hotEfficiency bias scale temperature r c := by
  have heps : (0 : K) < dblEps := dblEps_pos
  refine ⟨fun h1 h2 => ?_, fun h1 h2 => ?_, fun h1 h2 => ?_, fun h1 h2 => ?_, fun h1 h2 h3 => ?_, ?_⟩
  · unfold computeEfficiency
    rw [if_neg (not_lt.2 h2), if_pos h1]
  · unfold computeEfficiency
    rw [if_neg (not_lt.2 h2), if_neg (not_lt.2 h1)]
  · unfold computeEfficiency
    rw [if_pos h2, if_pos h1, mul_assoc]
  · unfold computeEfficiency
    rw [if_pos h2, if_neg (not_lt.2 h1), mul_assoc]
  · unfold hotEfficiency
    rw [if_neg (not_lt.2 h3), min_eq_left h2, max_eq_right h1]
  constructor
  · unfold computeEfficiency
    have he : 0 ≤ (if dblEps < r.userReactant then r.userReactant else r.efficiency) := by
      split_ifs with g
      · linarith
      · exact h
    simp only []
    split_ifs with g1 g2 g2
    · exact mul_nonneg (by linarith) (mul_nonneg (by linarith) (hc.total _ hr.reagent))
    · exact mul_nonneg h (mul_nonneg (by linarith) (hc.total _ hr.reagent))
    · linarith
    · exact h
  · unfold hotEfficiency
    simp only []
    split_ifs with g
    · exact mul_nonneg (le_max_left _ _) (mul_nonneg (by linarith) (hc.total _ hr.reagent))
    · exact le_max_left _ _

/-- A reactor set up with reactions of the table: its reactions are proper and keep the atoms of every element. -/
theorem c57_setup {types : List Chem} {net : List (Option Chem)} {u v : K} {d : ReactionDef K} {r : Reaction K}
    (hd : d ∈ (definedReactions : List (ReactionDef K))) (h : deriveReaction types net u v d = some r) :
    ProperReaction types.length r ∧
    ∀ e : Element, Balances types.length (perMole types (fun t => (t.atoms e : K))) r :=
  ⟨proper_of_entry (defined_sound d hd) h,
    fun e => derived_balances (defined_sound d hd) h e (defined_atoms d hd e)⟩

/-- A reactor as `derive` sets it up, with any reactions of the table. -/
structure SetUp (types : List Chem) (net : List (Option Chem)) (s : Reactor K) : Prop where
  n : s.n = types.length
  comp : ∀ k t, types[k]? = some t → ∃ total, 0 ≤ total ∧ deriveCompound net total t = some (s.comp k)
  reactions : ∀ r ∈ s.reactions, ∃ u v, ∃ d ∈ (definedReactions : List (ReactionDef K)),
    deriveReaction types net u v d = some r

/-- It can run, and no atoms are made or lost. -/
theorem c57_atoms {types : List Chem} {net : List (Option Chem)} {s : Reactor K} (h : SetUp types net s)
    (ps : List (Passage K)) (hx : ∀ p ∈ ps, ∀ i, 0 ≤ p.x i) (e : Element) :
    ProperReactor computeEfficiency s ∧
    ∑ k ∈ range s.n, producedAll computeEfficiency s ps k / (s.comp k).weight *
      perMole types (fun t => (t.atoms e : K)) k = 0 := by
  have hr : ∀ r ∈ s.reactions, ProperReaction s.n r := by
    intro r hm
    obtain ⟨u, v, d, hd, hdr⟩ := h.reactions r hm
    rw [h.n]
    exact (c57_setup hd hdr).1
  have hp : ProperReactor computeEfficiency s := by
    refine ⟨hr, ?_, ?_⟩
    · have hk : ∀ k, k < s.n → 0 < (s.comp k).weight ∧ 0 ≤ (s.comp k).total := by
        intro k hk
        rw [h.n] at hk
        obtain ⟨total, h0, h1⟩ := h.comp k _ (List.getElem?_eq_getElem hk)
        unfold deriveCompound at h1
        have hw : (0 : K) < (types[k]).weight := by
          cases types[k] <;> simp only [Chem.weight] <;> norm_num
        by_cases hf : (types[k]).isFluid = true
        · rw [if_pos hf] at h1
          cases hfi : findFluid net types[k] with
          | none => rw [hfi] at h1; cases h1
          | some i =>
            rw [hfi] at h1
            rw [← Option.some.inj h1]
            exact ⟨hw, h0⟩
        · rw [if_neg hf] at h1
          rw [← Option.some.inj h1]
          exact ⟨hw, h0⟩
      exact ⟨fun k q => (hk k q).1, fun k q => (hk k q).2⟩
    · intro r hm c hc
      obtain ⟨u, v, d, hd, hdr⟩ := h.reactions r hm
      obtain ⟨-, -, -, -, -, -, -, -, -, h10, -⟩ := deriveReaction_some hdr
      exact (c57_efficiency (hr r hm) (by rw [h10]; exact (defined_sound d hd).efficiency) hc 0 0 0).2.2.2.2.2.1
  refine ⟨hp, c57_elements_all hp ps hx _ ?_⟩
  intro r hm
  obtain ⟨u, v, d, hd, hdr⟩ := h.reactions r hm
  rw [h.n]
  exact (c57_setup hd hdr).2 e

/-- It is set up if the compounds of the reactions are configured and the fluids among them (methane, carbon monoxide and
dioxide, hydrogen, water, ammonia, oxygen) are in the network, and only then. -/
theorem c57_accepts (types : List Chem) (net : List (Option Chem)) (u v : K) (d : ReactionDef K) :
    (∃ r, deriveReaction types net u v d = some r) ↔
      ∀ t, (t = d.reactant ∨ t = d.reagent ∨ t = d.product1 ∨ d.product2 = some t) →
        t ∈ types ∧ (t ∈ [.CH4, .CO, .CO2, .H2, .H2O, .NH3, .O2] → some t ∈ net) := by
  have hfl : ∀ t : Chem, t ∈ [Chem.CH4, .CO, .CO2, .H2, .H2O, .NH3, .O2] ↔ t.isFluid = true := by
    intro t; cases t <;> decide
  simp only [hfl]
  have hcheck : ∀ t, checkCompound types net t = true ↔ t ∈ types ∧ (t.isFluid = true → some t ∈ net) := by
    intro t
    have hf : (findFluid net t).isSome = true ↔ some t ∈ net := by
      unfold findFluid
      rw [List.findIdx?_isSome]
      simp
    unfold checkCompound
    rw [Bool.and_eq_true, List.contains_iff_mem, Bool.or_eq_true, Bool.not_eq_true', hf]
    constructor
    · rintro ⟨a, b⟩
      refine ⟨a, fun c => ?_⟩
      rcases b with b | b
      · rw [b] at c; cases c
      · exact b
    · rintro ⟨a, b⟩
      refine ⟨a, ?_⟩
      cases hc : t.isFluid with
      | false => left; rfl
      | true => right; exact b hc
  unfold deriveReaction
  constructor
  · rintro ⟨r, hr⟩ t ht
    by_cases hc : (checkCompound types net d.reactant && checkCompound types net d.reagent &&
      checkCompound types net d.product1 && d.product2.all (checkCompound types net)) = true
    · simp only [Bool.and_eq_true] at hc
      obtain ⟨⟨⟨a, b⟩, c⟩, e⟩ := hc
      rcases ht with ht | ht | ht | ht
      · rw [ht]; exact (hcheck _).1 a
      · rw [ht]; exact (hcheck _).1 b
      · rw [ht]; exact (hcheck _).1 c
      · rw [ht] at e; exact (hcheck _).1 e
    · rw [if_neg hc] at hr; cases hr
  · intro hall
    have a := hall d.reactant (Or.inl rfl)
    have b := hall d.reagent (Or.inr (Or.inl rfl))
    have c := hall d.product1 (Or.inr (Or.inr (Or.inl rfl)))
    have e : d.product2.all (checkCompound types net) = true := by
      cases hp : d.product2 with
      | none => rfl
      | some t => exact (hcheck t).2 (hall t (Or.inr (Or.inr (Or.inr hp))))
    rw [if_pos (by simp only [Bool.and_eq_true]; exact ⟨⟨⟨(hcheck _).2 a, (hcheck _).2 b⟩, (hcheck _).2 c⟩, e⟩)]
    obtain ⟨i, hi⟩ := lastIndex_isSome a.1
    obtain ⟨j, hj⟩ := lastIndex_isSome b.1
    obtain ⟨k, hk⟩ := lastIndex_isSome c.1
    rw [hi, hj, hk]
    exact ⟨_, rfl⟩

/-- The weights of the table agree with the formulas of the compounds, within 0.0005. -/
theorem c57_weights (t : Chem) :
    |(t.weight : K) - (elements.map (fun e => (t.atoms e : K) * e.weight)).sum| ≤ 5 / 10000 := by
  cases t <;>
    simp only [Chem.weight, elements, Chem.atoms, Element.weight, List.map_cons, List.map_nil, List.sum_cons,
      List.sum_nil] <;>
    rw [abs_le] <;> constructor <;> norm_num

/-- Mass that a reaction of the table makes, less what it uses. -/
def massDefect (d : ReactionDef K) : K :=
  d.nProduct1 * d.product1.weight + (match d.product2 with | some p => d.nProduct2 * p.weight | none => 0) -
    d.nReactant * d.reactant.weight - d.nReagent * d.reagent.weight

/-- Mass is kept by every reaction of the table to two millionths of what reacts, and exactly by four. -/
theorem c57_mass_close :
    (∀ d ∈ (definedReactions : List (ReactionDef K)),
      |massDefect d| ≤ 2 / 1000000 * (d.nReactant * d.reactant.weight + d.nReagent * d.reagent.weight)) ∧
    (definedReactions : List (ReactionDef K)).map massDefect = [0, 0, 4 / 100000, 0, 2 / 100000, 0, 8 / 100000] := by
  constructor
  · intro d hd
    simp only [definedReactions, List.mem_cons, List.not_mem_nil, or_false] at hd
    rcases hd with h | h | h | h | h | h | h <;> subst h <;> simp only [massDefect, Chem.weight] <;>
      rw [abs_le] <;> constructor <;> norm_num
  · simp only [definedReactions, List.map_cons, List.map_nil, massDefect, Chem.weight]
    norm_num

/-- The heat of the reactions raises the energy of the flow, if this is forward. -/
theorem c57_heat {dt flow h : K} (s : Reactor K) (hdt : 0 < dt) (hf : 0 < flow) :
    flow * heatedEnthalpy dt flow h s * dt = flow * h * dt + s.heat := by
  unfold heatedEnthalpy
  field_simp

/-- If it is reversed, the heat is taken from the flow instead: a reaction that gives off heat cools it. -/
theorem c57_heat_reversed {dt flow h : K} (s : Reactor K) (hdt : 0 < dt) (hf : flow < 0) :
    |flow| * heatedEnthalpy dt flow h s * dt = |flow| * h * dt - s.heat ∧
    (0 < s.heat → heatedEnthalpy dt flow h s < h) := by
  have hf' := hf.ne
  have h1 : |flow| * heatedEnthalpy dt flow h s * dt = |flow| * h * dt - s.heat := by
    unfold heatedEnthalpy
    rw [abs_of_neg hf]
    field_simp
    ring
  refine ⟨h1, fun hh => ?_⟩
  have hp : 0 < |flow| * dt := mul_pos (abs_pos.2 hf') hdt
  have h2 : heatedEnthalpy dt flow h s * (|flow| * dt) < h * (|flow| * dt) := by linarith
  exact lt_of_mul_lt_mul_right h2 hp.le

/-- The moles per time that a call brings. -/
def c57moles : Collect K → K
  | .inflow p rate => rate / p.mweight
  | _ => 0

/-- The source that the solver is given is that of the fluids delivered, as long as there is a flow: the moles that the
node downstream receives besides those of the flow through the reactor. -/
theorem c57_source (internal : Poly K) (s : Reactor K) (flow : K) :
    (limit100 < flow → (transportReactor internal flow s).source0 = 0 ∧
      (transportReactor internal flow s).source1 = ((transportReactor internal flow s).to1.tail.map c57moles).sum ∧
      (transportReactor internal flow s).to1 = deliver internal |flow| s ∧
      (transportReactor internal flow s).to0 = [.outflux |flow|]) ∧
    (flow < -limit100 → (transportReactor internal flow s).source1 = 0 ∧
      (transportReactor internal flow s).source0 = ((transportReactor internal flow s).to0.tail.map c57moles).sum ∧
      (transportReactor internal flow s).to0 = deliver internal |flow| s ∧
      (transportReactor internal flow s).to1 = [.outflux |flow|]) := by
  have hl : (0 : K) < limit100 := by unfold limit100; exact mul_pos (by norm_num) dblEps_pos
  have hs : ∀ f, deliverSource s = ((deliver internal f s).tail.map c57moles).sum := by
    intro f
    unfold deliverSource deliver
    by_cases h1 : limit100 < s.productsFlow <;> by_cases h2 : s.reactantsFlow < -limit100 <;>
      simp [h1, h2, c57moles]
  constructor
  · intro h
    unfold transportReactor
    rw [if_pos h, abs_of_pos (hl.trans h)]
    exact ⟨rfl, hs _, rfl, rfl⟩
  · intro h
    unfold transportReactor
    rw [if_neg (by linarith), if_pos h, abs_of_neg (by linarith)]
    exact ⟨rfl, hs _, rfl, rfl⟩

/-- If it stops, nothing is delivered, but the solver is still given the source of the last flow. -/
theorem c57_stale_source (internal : Poly K) (s : Reactor K) {flow : K} (h : |flow| ≤ limit100) :
    (transportReactor internal flow s).to0 = [] ∧ (transportReactor internal flow s).to1 = [] ∧
    (transportReactor internal flow s).source0 = s.source0 ∧ (transportReactor internal flow s).source1 = s.source1 := by
  rw [abs_le] at h
  unfold transportReactor
  rw [if_neg (not_lt.2 h.2), if_neg (not_lt.2 h.1)]
  exact ⟨rfl, rfl, rfl, rfl⟩

/-- A fluid of four compounds with the weights of the table. -/
def gasOf (types : List Chem) : Poly ℚ where
  n := types.length
  types := fun i => i
  mw := perMole types Chem.weight
  parts := fun _ => ⟨0, 0, 0, 0, 0, 0, 0⟩
  temperature := 300
  pressure := 100
  flowRate := 0
  mass := 0
  mole := 0
  mweight := 20
  enthalpy := 0

/-- A reactor of the given compounds and reactions of the table. -/
def tableReactor (types : List Chem) (net : List (Option Chem)) (gases : List Chem) (totals : Nat → ℚ)
    (which : List Nat) : Reactor ℚ where
  n := types.length
  comp := fun k => match types[k]? with
    | some t => (deriveCompound net (totals k) t).getD ⟨none, 1, 0, 0⟩
    | none => ⟨none, 1, 0, 0⟩
  reactions := which.filterMap (fun w =>
    ((definedReactions : List (ReactionDef ℚ))[w]?).bind (deriveReaction types net 0 0))
  products := gasOf gases
  reactants := gasOf gases
  productsFlow := 0
  reactantsFlow := 0
  heat := 0
  source0 := 0
  source1 := 0

/-- A bed of lithium hydroxide that takes up carbon dioxide and water. -/
def lithiumBed : Reactor ℚ :=
  tableReactor [.CO2, .H2O, .LIOH, .LIOHH2O, .LI2CO3] [some .O2, some .CO2, some .H2O] [.O2, .CO2, .H2O]
    (fun k => if k = 2 then 3 else if k = 3 then 1/10 else 0) [3, 4]

/-- Hydrogen and carbon dioxide to water and methane. -/
def sabatier : Reactor ℚ :=
  tableReactor [.CO2, .H2, .H2O, .CH4] [some .CO2, some .H2, some .H2O, some .CH4] [.CO2, .H2, .H2O, .CH4]
    (fun _ => 0) [6]

/-- Air of which 1% is carbon dioxide and 2% water. -/
def humidAir : Passage ℚ := ⟨1/10, 1/100, fun i => if i = 0 then 97/100 else if i = 1 then 1/100 else 2/100⟩

/-- As much hydrogen as carbon dioxide. -/
def hydrogenFeed : Passage ℚ := ⟨1/10, 1/100, fun i => if i < 2 then 1/2 else 0⟩

theorem tableReactor_setUp {types : List Chem} {net : List (Option Chem)} {gases : List Chem} {totals : Nat → ℚ}
    {which : List Nat} (h0 : ∀ k, 0 ≤ totals k) (h1 : ∀ t ∈ types, (deriveCompound net (0 : ℚ) t).isSome) :
    SetUp types net (tableReactor types net gases totals which) := by
  refine ⟨rfl, ?_, ?_⟩
  · intro k t hk
    refine ⟨totals k, h0 k, ?_⟩
    have hs : (deriveCompound net (totals k) t).isSome := by
      have := h1 t (List.mem_of_getElem? hk)
      unfold deriveCompound at this ⊢
      split_ifs at this ⊢
      · cases hf : findFluid net t with
        | none => rw [hf] at this; cases this
        | some i => rfl
      · rfl
    show deriveCompound net (totals k) t = some (match types[k]? with
      | some t => (deriveCompound net (totals k) t).getD ⟨none, 1, 0, 0⟩
      | none => ⟨none, 1, 0, 0⟩)
    rw [hk]
    show deriveCompound net (totals k) t = some ((deriveCompound net (totals k) t).getD ⟨none, 1, 0, 0⟩)
    cases hd : deriveCompound net (totals k) t with
    | none => rw [hd] at hs; cases hs
    | some c => rfl
  · intro r hr
    obtain ⟨w, -, hw⟩ := List.mem_filterMap.1 hr
    cases hd : (definedReactions : List (ReactionDef ℚ))[w]? with
    | none => rw [hd] at hw; cases hw
    | some d =>
      rw [hd] at hw
      exact ⟨0, 0, d, List.mem_of_getElem? hd, hw⟩

theorem lithiumBed_setUp :
    SetUp [.CO2, .H2O, .LIOH, .LIOHH2O, .LI2CO3] [some .O2, some .CO2, some .H2O] lithiumBed := by
  refine tableReactor_setUp (fun k => ?_) (by decide)
  split_ifs <;> norm_num

theorem sabatier_setUp :
    SetUp [.CO2, .H2, .H2O, .CH4] [some .CO2, some .H2, some .H2O, some .CH4] sabatier :=
  tableReactor_setUp (fun _ => le_rfl) (by decide)

/-- A reactor that makes mass: the atoms are kept, but the weights of the table do not add up. -/
theorem c57_mass_gained :
    ∃ (types : List Chem) (net : List (Option Chem)) (s : Reactor ℚ) (p : Passage ℚ), SetUp types net s ∧
      (∀ i, 0 ≤ p.x i) ∧ 0 < ∑ k ∈ range s.n, produced computeEfficiency s p k := by
  refine ⟨_, _, sabatier, hydrogenFeed, sabatier_setUp, fun i => ?_, by decide +kernel⟩
  unfold hydrogenFeed
  simp only []
  split_ifs <;> norm_num

/-- The bed runs both of its reactions: it takes up water and carbon dioxide, and turns hydroxide into carbonate. -/
example : lithiumBed.reactions.length = 2 ∧ reacts humidAir.dt humidAir.flow ∧
    produced computeEfficiency lithiumBed humidAir 0 < 0 ∧ produced computeEfficiency lithiumBed humidAir 2 < 0 ∧
    0 < produced computeEfficiency lithiumBed humidAir 4 := by decide +kernel

/-- It can run, and what was proved applies to it, for any number of updates. -/
example (n : Nat) (e : Element) : ProperReactor computeEfficiency lithiumBed ∧
    ∑ k ∈ range lithiumBed.n, producedAll computeEfficiency lithiumBed (List.replicate n humidAir) k /
      (lithiumBed.comp k).weight *
      perMole [.CO2, .H2O, .LIOH, .LIOHH2O, .LI2CO3] (fun t => (t.atoms e : ℚ)) k = 0 :=
  c57_atoms lithiumBed_setUp _ (fun p hp i => by
    rw [List.eq_of_mem_replicate hp]
    unfold humidAir
    simp only []
    split_ifs <;> norm_num) e

theorem lithiumBed_placed : Placed lithiumBed := by
  have h1 : ∀ k : Fin 5, (lithiumBed.comp k).index.all (fun i => decide (i < 3)) = true := by decide +kernel
  have h2 : ∀ j k : Fin 5, (lithiumBed.comp j).index.isSome = true →
      (lithiumBed.comp j).index = (lithiumBed.comp k).index → j = k := by decide +kernel
  have h3 : ∀ k i, k < lithiumBed.n → (lithiumBed.comp k).index = some i → i < 3 := by
    intro k i hk hi
    have := h1 ⟨k, hk⟩
    rw [hi] at this
    exact of_decide_eq_true this
  refine ⟨h3, h3, ?_⟩
  intro j k i hj hk hji hki
  have := h2 ⟨j, hj⟩ ⟨k, hk⟩ (by rw [hji]; rfl) (by rw [hji, hki])
  exact congrArg Fin.val this

/-- Its fluids have places, and the flows of products and reactants are large enough to be delivered, or none. -/
example : Placed lithiumBed ∧
    (updateFluid computeEfficiency humidAir.dt humidAir.flow humidAir.x lithiumBed).reactantsFlow < -limit100 ∧
    ((updateFluid computeEfficiency humidAir.dt humidAir.flow humidAir.x lithiumBed).productsFlow = 0 ∨
      limit100 < (updateFluid computeEfficiency humidAir.dt humidAir.flow humidAir.x lithiumBed).productsFlow) ∧
    limit100 < (updateFluid computeEfficiency hydrogenFeed.dt hydrogenFeed.flow hydrogenFeed.x sabatier).productsFlow := by
  exact ⟨lithiumBed_placed, by decide +kernel, by decide +kernel, by decide +kernel⟩

/-- It takes up carbon dioxide: the node downstream receives less than what flows in. -/
example : received (deliver { gasOf [.O2, .CO2, .H2O] with
      parts := fun i => ⟨humidAir.x i, 0, 0, 0, 0, 0, 0⟩ } humidAir.flow
    (updateFluid computeEfficiency humidAir.dt humidAir.flow humidAir.x lithiumBed)) 1 <
      humidAir.flow * humidAir.x 1 ∧
    received (deliver { gasOf [.O2, .CO2, .H2O] with
      parts := fun i => ⟨humidAir.x i, 0, 0, 0, 0, 0, 0⟩ } humidAir.flow
    (updateFluid computeEfficiency humidAir.dt humidAir.flow humidAir.x lithiumBed)) 0 =
      humidAir.flow * humidAir.x 0 := by decide +kernel

/-- Reversed, the heat of the reaction cools. -/
example : heatedEnthalpy (1/10) (-1/100 : ℚ) 500 { lithiumBed with heat := 1 } < 500 ∧
    500 < heatedEnthalpy (1/10) (1/100 : ℚ) 500 { lithiumBed with heat := 1 } := by decide +kernel

/-- A source left over from the flow before. -/
example : (transportReactor (gasOf [.CO2]) 0 { sabatier with source1 := -(1/1000) }).source1 ≠ 0 ∧
    (transportReactor (gasOf [.CO2]) 0 { sabatier with source1 := -(1/1000) }).to1.length = 0 := by decide +kernel

end Gunns.Props
