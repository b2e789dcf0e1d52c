import Verif.Fluid.ReactorLemmas

/-!
# Lemmas about updates of chemical reactors
-/

set_option linter.unusedSectionVars false

namespace Gunns.Fluid

open Finset

variable {K : Type _} [Field K] [LinearOrder K] [IsStrictOrderedRing K]

/-- All reactions, without the heat. -/
def reactAll (eff : Reaction K → (Nat → Compound K) → K) (c : Nat → Compound K) (rs : List (Reaction K)) :
    Nat → Compound K := rs.foldl (reactOnce eff) c

theorem fold_fst (eff : Reaction K → (Nat → Compound K) → K) (rs : List (Reaction K)) (a : (Nat → Compound K) × K) :
    (rs.foldl (fun (a : (Nat → Compound K) × K) r => (reactOnce eff a.1 r, a.2 + reactHeat eff a.1 r)) a).1 =
      reactAll eff a.1 rs := by
  induction rs generalizing a with
  | nil => rfl
  | cons r rs ih => rw [List.foldl_cons, ih]; rfl

theorem react_comp (eff : Reaction K → (Nat → Compound K) → K) (s : Reactor K) :
    (react eff s).comp = reactAll eff s.comp s.reactions := fold_fst eff _ _

theorem reactAll_same (eff : Reaction K → (Nat → Compound K) → K) (rs : List (Reaction K)) (c : Nat → Compound K)
    (j : Nat) : (reactAll eff c rs j).weight = (c j).weight ∧ (reactAll eff c rs j).index = (c j).index := by
  induction rs generalizing c with
  | nil => exact ⟨rfl, rfl⟩
  | cons r rs ih =>
    obtain ⟨h1, h2⟩ := ih (reactOnce eff c r)
    obtain ⟨h3, h4⟩ := reactOnce_same (eff := eff) (r := r) (c := c) j
    exact ⟨h1.trans h3, h2.trans h4⟩

section all

variable {eff : Reaction K → (Nat → Compound K) → K} {n : Nat}

theorem reactAll_proper {rs : List (Reaction K)} {c : Nat → Compound K} (hr : ∀ r ∈ rs, ProperReaction n r)
    (he : ∀ r ∈ rs, ∀ c, ProperCompounds n c → 0 ≤ eff r c) (hc : ProperCompounds n c) :
    ProperCompounds n (reactAll eff c rs) := by
  induction rs generalizing c with
  | nil => exact hc
  | cons r rs ih =>
    exact ih (fun q hq => hr q (List.mem_cons_of_mem _ hq)) (fun q hq => he q (List.mem_cons_of_mem _ hq))
      (reactOnce_proper (hr r List.mem_cons_self) hc (he r List.mem_cons_self c hc))

/-- Whatever the reactions do not change per mole is kept. -/
theorem reactAll_balance {rs : List (Reaction K)} {c : Nat → Compound K} {a : Nat → K}
    (hr : ∀ r ∈ rs, ProperReaction n r) (he : ∀ r ∈ rs, ∀ c, ProperCompounds n c → 0 ≤ eff r c)
    (hc : ProperCompounds n c) (hb : ∀ r ∈ rs, Balances n a r) :
    ∑ k ∈ range n, (reactAll eff c rs k).mass / (c k).weight * a k = ∑ k ∈ range n, (c k).mass / (c k).weight * a k := by
  induction rs generalizing c with
  | nil => rfl
  | cons r rs ih =>
    have hr1 := hr r List.mem_cons_self
    have ih' := ih (c := reactOnce eff c r) (fun q hq => hr q (List.mem_cons_of_mem _ hq))
      (fun q hq => he q (List.mem_cons_of_mem _ hq)) (reactOnce_proper hr1 hc (he r List.mem_cons_self c hc))
      (fun q hq => hb q (List.mem_cons_of_mem _ hq))
    have hw : ∀ k, (reactOnce eff c r k).weight = (c k).weight := fun k => (reactOnce_same k).1
    simp only [hw] at ih'
    refine (show _ = _ from ih').trans ?_
    have : ∀ k ∈ range n, (reactOnce eff c r k).mass / (c k).weight * a k =
        (c k).mass / (c k).weight * a k + extent eff r c * (stoich r k * a k) := by
      intro k hk
      have hwk := (hc.weight k (mem_range.1 hk)).ne'
      rw [reactOnce_mass hr1 hc]
      field_simp
    rw [Finset.sum_congr rfl this, Finset.sum_add_distrib, ← Finset.mul_sum, hb r List.mem_cons_self, mul_zero, add_zero]

/-- The mass available changes as the mass produced, but for small remainders. -/
theorem reactAll_total {rs : List (Reaction K)} {c : Nat → Compound K}
    (hr : ∀ r ∈ rs, ProperReaction n r) (he : ∀ r ∈ rs, ∀ c, ProperCompounds n c → 0 ≤ eff r c)
    (hc : ProperCompounds n c) {j : Nat} (hj : j < n) :
    ∃ l : K, 0 ≤ l ∧ l ≤ dblEps * rs.length ∧
      (reactAll eff c rs j).total = (c j).total + ((reactAll eff c rs j).mass - (c j).mass) - l := by
  induction rs generalizing c with
  | nil => exact ⟨0, le_rfl, by simp, by simp [reactAll]⟩
  | cons r rs ih =>
    have hr1 := hr r List.mem_cons_self
    have he1 := he r List.mem_cons_self c hc
    obtain ⟨l, h0, h1, h2⟩ := ih (c := reactOnce eff c r) (fun q hq => hr q (List.mem_cons_of_mem _ hq))
      (fun q hq => he q (List.mem_cons_of_mem _ hq)) (reactOnce_proper hr1 hc he1)
    obtain ⟨-, l', h0', h1', h2'⟩ := reactOnce_total hr1 hc he1 hj
    refine ⟨l + l', add_nonneg h0 h0', ?_, ?_⟩
    · rw [List.length_cons, Nat.cast_add, mul_add, Nat.cast_one, mul_one]
      exact add_le_add h1 h1'
    · have h3 := reactOnce_mass (eff := eff) hr1 hc j
      show (reactAll eff (reactOnce eff c r) rs j).total = _ + ((reactAll eff (reactOnce eff c r) rs j).mass - _) - _
      rw [h2, h2', h3]
      ring

end all

/-! ### Updates -/

theorem output_comp (dt : K) (s : Reactor K) :
    (outputToAtmosphere dt s).comp = s.comp ∧ (outputToAtmosphere dt s).n = s.n ∧
      (outputToAtmosphere dt s).reactions = s.reactions ∧ (outputToAtmosphere dt s).heat = s.heat ∧
      (outputToAtmosphere dt s).source0 = s.source0 ∧ (outputToAtmosphere dt s).source1 = s.source1 := by
  unfold outputToAtmosphere
  simp only []
  split_ifs with h
  · exact ⟨rfl, rfl, rfl, rfl, rfl, rfl⟩
  · refine loop_inv (fun _ (t : Reactor K) => t.comp = s.comp ∧ t.n = s.n ∧ t.reactions = s.reactions ∧ t.heat = s.heat ∧
      t.source0 = s.source0 ∧ t.source1 = s.source1) s.n ⟨rfl, rfl, rfl, rfl, rfl, rfl⟩ ?_
    intro k _ t ht
    cases (s.comp k).index with
    | none => exact ht
    | some i =>
      simp only []
      split_ifs
      · exact ht
      · exact ht
      · exact ht

theorem input_same (dt flow : K) (x : Nat → K) (s : Reactor K) (j : Nat) :
    ((inputFromAtmosphere dt flow x s).comp j).weight = (s.comp j).weight ∧
      ((inputFromAtmosphere dt flow x s).comp j).index = (s.comp j).index := by
  unfold inputFromAtmosphere
  simp only []
  by_cases h : j < s.n
  · rw [if_pos h]
    cases (s.comp j).index <;> simp
  · rw [if_neg h]; exact ⟨rfl, rfl⟩

theorem input_values (dt flow : K) (x : Nat → K) (s : Reactor K) {j : Nat} (h : j < s.n) :
    ((inputFromAtmosphere dt flow x s).comp j).mass = 0 ∧
    ((inputFromAtmosphere dt flow x s).comp j).total =
      match (s.comp j).index with | some i => x i * |flow| * dt | none => (s.comp j).total := by
  unfold inputFromAtmosphere
  simp only []
  rw [if_pos h]
  cases (s.comp j).index <;> exact ⟨rfl, rfl⟩

section update

variable {eff : Reaction K → (Nat → Compound K) → K}

/-- The reactor with flows and fluids reset. -/
def cleared (s : Reactor K) : Reactor K :=
  { s with
    reactantsFlow := 0
    productsFlow := 0
    reactants := resetState s.reactants
    products := resetState s.products }

theorem update_comp (dt flow : K) (x : Nat → K) (s : Reactor K) :
    (updateFluid eff dt flow x s).comp =
      (if reacts dt flow then reactAll eff (inputFromAtmosphere dt flow x (cleared s)).comp s.reactions else s.comp) ∧
    (updateFluid eff dt flow x s).n = s.n ∧ (updateFluid eff dt flow x s).reactions = s.reactions ∧
    (updateFluid eff dt flow x s).source0 = s.source0 ∧ (updateFluid eff dt flow x s).source1 = s.source1 := by
  unfold updateFluid
  simp only []
  by_cases h : reacts dt flow
  · rw [if_pos h, if_pos h]
    obtain ⟨h1, h2, h3, -, h4, h5⟩ := output_comp dt (react eff (inputFromAtmosphere dt flow x (cleared s)))
    exact ⟨h1.trans (react_comp eff _), h2, h3, h4, h5⟩
  · rw [if_neg h, if_neg h]
    exact ⟨rfl, rfl, rfl, rfl, rfl⟩

theorem input_proper {dt flow : K} {x : Nat → K} {s : Reactor K} (hs : ProperReactor eff s) (hx : ∀ i, 0 ≤ x i)
    (hdt : 0 ≤ dt) : ProperCompounds s.n (inputFromAtmosphere dt flow x (cleared s)).comp := by
  constructor
  · intro k hk
    rw [(input_same dt flow x (cleared s) k).1]
    exact hs.compounds.weight k hk
  · intro k hk
    rw [(input_values dt flow x (cleared s) (j := k) hk).2]
    show 0 ≤ match (s.comp k).index with | some i => x i * |flow| * dt | none => (s.comp k).total
    cases (s.comp k).index with
    | none => exact hs.compounds.total k hk
    | some i => exact mul_nonneg (mul_nonneg (hx i) (abs_nonneg _)) hdt

theorem update_proper {dt flow : K} {x : Nat → K} {s : Reactor K} (hs : ProperReactor eff s) (hx : ∀ i, 0 ≤ x i) :
    ProperReactor eff (updateFluid eff dt flow x s) := by
  obtain ⟨h1, h2, h3, -, -⟩ := update_comp (eff := eff) dt flow x s
  refine ⟨?_, ?_, ?_⟩
  · rw [h2, h3]; exact hs.reactions
  · rw [h2, h1]
    by_cases h : reacts dt flow
    · rw [if_pos h]
      exact reactAll_proper hs.reactions hs.efficiency (input_proper hs hx (dblEps_pos.le.trans h.2.le))
    · rw [if_neg h]; exact hs.compounds
  · rw [h2, h3]; exact hs.efficiency

theorem update_weight (dt flow : K) (x : Nat → K) (s : Reactor K) (j : Nat) :
    ((updateFluid eff dt flow x s).comp j).weight = (s.comp j).weight ∧
      ((updateFluid eff dt flow x s).comp j).index = (s.comp j).index := by
  rw [(update_comp (eff := eff) dt flow x s).1]
  by_cases h : reacts dt flow
  · rw [if_pos h]
    obtain ⟨h1, h2⟩ := reactAll_same eff s.reactions (inputFromAtmosphere dt flow x (cleared s)).comp j
    obtain ⟨h3, h4⟩ := input_same dt flow x (cleared s) j
    exact ⟨h1.trans h3, h2.trans h4⟩
  · rw [if_neg h]; exact ⟨rfl, rfl⟩

end update

/-! ### Output -/

/-- The mass of compound `k` that is put into the products. -/
def emits (s : Reactor K) (k : Nat) : K :=
  if (s.comp k).index.isSome ∧ dblEps < (s.comp k).mass then (s.comp k).mass else 0

/-- The mass of compound `k` that is put into the reactants, negative. -/
def draws (s : Reactor K) (k : Nat) : K :=
  if (s.comp k).index.isSome ∧ (s.comp k).mass < -dblEps then (s.comp k).mass else 0

theorem putMass_spec {i : Nat} {m : K} {p : Poly K} (hi : i < p.n) :
    (putMass i m p).n = p.n ∧ (putMass i m p).mw = p.mw ∧
      ∀ j, ((putMass i m p).parts j).mass = if j = i then m else (p.parts j).mass := by
  unfold putMass setPartMass
  have h : ¬ ((i : Int) < 0 ∨ (p.n : Int) ≤ i) := by omega
  rw [if_neg h]
  refine ⟨rfl, rfl, fun j => ?_⟩
  simp only [Res.state, Int.toNat_natCast]
  by_cases hj : j = i
  · rw [if_pos hj, if_pos hj]; rfl
  · rw [if_neg hj, if_neg hj]

/-- The masses put into a fluid, one for each compound. -/
theorem put_sum {n : Nat} {idx : Nat → Option Nat} {v : Nat → K} {np : Nat}
    (hidx : ∀ k i, k < n → idx k = some i → i < np) (hv : ∀ k, k < n → idx k = none → v k = 0) :
    ∑ i ∈ range np, ∑ k ∈ range n, (if idx k = some i then v k else 0) = ∑ k ∈ range n, v k := by
  rw [Finset.sum_comm]
  refine Finset.sum_congr rfl (fun k hk => ?_)
  have hk' := mem_range.1 hk
  cases h : idx k with
  | none => rw [hv k hk' h]; simp
  | some i =>
    rw [Finset.sum_eq_single i]
    · simp
    · intro j _ hj
      rw [if_neg]
      intro e
      exact hj (Option.some.inj e).symm
    · intro hn
      exact absurd (mem_range.2 (hidx k i hk' h)) hn

/-- What holds while the masses are put into the fluids. -/
structure Filling (s : Reactor K) (j : Nat) (t : Reactor K) : Prop where
  pn : t.products.n = s.products.n
  rn : t.reactants.n = s.reactants.n
  pf : t.productsFlow = ∑ k ∈ range j, emits s k
  rf : t.reactantsFlow = ∑ k ∈ range j, draws s k
  pm : ∀ i, i < s.products.n → (t.products.parts i).mass =
    ∑ k ∈ range j, if (s.comp k).index = some i then emits s k else 0
  rm : ∀ i, i < s.reactants.n → (t.reactants.parts i).mass =
    ∑ k ∈ range j, if (s.comp k).index = some i then draws s k else 0

/-- Where the compounds are in the fluids: each that is there has a place of its own. -/
structure Placed (s : Reactor K) : Prop where
  products : ∀ k i, k < s.n → (s.comp k).index = some i → i < s.products.n
  reactants : ∀ k i, k < s.n → (s.comp k).index = some i → i < s.reactants.n
  distinct : ∀ j k i, j < s.n → k < s.n → (s.comp j).index = some i → (s.comp k).index = some i → j = k

theorem sum_before_zero {s : Reactor K} {v : Nat → K} {j i : Nat} (hp : Placed s) (hj : j < s.n)
    (hi : (s.comp j).index = some i) : ∑ k ∈ range j, (if (s.comp k).index = some i then v k else 0) = 0 := by
  refine Finset.sum_eq_zero (fun k hk => ?_)
  have hk' := mem_range.1 hk
  rw [if_neg]
  intro e
  have := hp.distinct k j i (hk'.trans hj) hj e hi
  omega

theorem filling_loop {s : Reactor K} (hp : Placed s)
    (h0 : s.productsFlow = 0) (h1 : s.reactantsFlow = 0) (h2 : ∀ i, i < s.products.n → (s.products.parts i).mass = 0)
    (h3 : ∀ i, i < s.reactants.n → (s.reactants.parts i).mass = 0) :
    Filling s s.n (loop (fun k (t : Reactor K) =>
      match (s.comp k).index with
      | some i =>
        if dblEps < (s.comp k).mass then { t with
            products := putMass i (s.comp k).mass t.products
            productsFlow := t.productsFlow + (s.comp k).mass }
        else if (s.comp k).mass < -dblEps then { t with
            reactants := putMass i (s.comp k).mass t.reactants
            reactantsFlow := t.reactantsFlow + (s.comp k).mass }
        else t
      | none => t) s.n s) := by
  refine loop_inv (fun j t => Filling s j t) s.n
    ⟨rfl, rfl, by simpa using h0, by simpa using h1, by simpa using h2, by simpa using h3⟩ ?_
  intro j hj t ht
  have heps : (0 : K) < dblEps := dblEps_pos
  cases hi : (s.comp j).index with
  | none =>
    have he : emits s j = 0 := by unfold emits; rw [if_neg]; rw [hi]; simp
    have hd : draws s j = 0 := by unfold draws; rw [if_neg]; rw [hi]; simp
    refine ⟨ht.pn, ht.rn, ?_, ?_, ?_, ?_⟩
    · rw [Finset.sum_range_succ, he, add_zero]; exact ht.pf
    · rw [Finset.sum_range_succ, hd, add_zero]; exact ht.rf
    · intro i hii; rw [Finset.sum_range_succ, he, ite_self, add_zero]; exact ht.pm i hii
    · intro i hii; rw [Finset.sum_range_succ, hd, ite_self, add_zero]; exact ht.rm i hii
  | some i0 =>
    simp only []
    by_cases c1 : dblEps < (s.comp j).mass
    · rw [if_pos c1]
      have he : emits s j = (s.comp j).mass := by unfold emits; rw [if_pos]; exact ⟨by rw [hi]; rfl, c1⟩
      have hd : draws s j = 0 := by unfold draws; rw [if_neg]; rintro ⟨-, h⟩; linarith
      have hin : i0 < t.products.n := by rw [ht.pn]; exact hp.products j i0 hj hi
      obtain ⟨p1, -, p3⟩ := putMass_spec (m := (s.comp j).mass) hin
      refine ⟨p1.trans ht.pn, ht.rn, ?_, ?_, ?_, ?_⟩
      · rw [Finset.sum_range_succ, he, ← ht.pf]
      · rw [Finset.sum_range_succ, hd, add_zero]; exact ht.rf
      · intro i hii
        rw [p3 i, Finset.sum_range_succ, he, hi]
        by_cases e : i = i0
        · rw [if_pos e, if_pos (by rw [e]), e, sum_before_zero hp hj hi, zero_add]
        · rw [if_neg e, if_neg (fun h => e (Option.some.inj h).symm), add_zero]
          exact ht.pm i hii
      · intro i hii; rw [Finset.sum_range_succ, hd, ite_self, add_zero]; exact ht.rm i hii
    · rw [if_neg c1]
      have he : emits s j = 0 := by unfold emits; rw [if_neg]; rintro ⟨-, h⟩; exact c1 h
      by_cases c2 : (s.comp j).mass < -dblEps
      · rw [if_pos c2]
        have hd : draws s j = (s.comp j).mass := by unfold draws; rw [if_pos]; exact ⟨by rw [hi]; rfl, c2⟩
        have hin : i0 < t.reactants.n := by rw [ht.rn]; exact hp.reactants j i0 hj hi
        obtain ⟨p1, -, p3⟩ := putMass_spec (m := (s.comp j).mass) hin
        refine ⟨ht.pn, p1.trans ht.rn, ?_, ?_, ?_, ?_⟩
        · rw [Finset.sum_range_succ, he, add_zero]; exact ht.pf
        · rw [Finset.sum_range_succ, hd, ← ht.rf]
        · intro i hii; rw [Finset.sum_range_succ, he, ite_self, add_zero]; exact ht.pm i hii
        · intro i hii
          rw [p3 i, Finset.sum_range_succ, hd, hi]
          by_cases e : i = i0
          · rw [if_pos e, if_pos (by rw [e]), e, sum_before_zero hp hj hi, zero_add]
          · rw [if_neg e, if_neg (fun h => e (Option.some.inj h).symm), add_zero]
            exact ht.rm i hii
      · rw [if_neg c2]
        have hd : draws s j = 0 := by unfold draws; rw [if_neg]; rintro ⟨-, h⟩; exact c2 h
        refine ⟨ht.pn, ht.rn, ?_, ?_, ?_, ?_⟩
        · rw [Finset.sum_range_succ, he, add_zero]; exact ht.pf
        · rw [Finset.sum_range_succ, hd, add_zero]; exact ht.rf
        · intro i hii; rw [Finset.sum_range_succ, he, ite_self, add_zero]; exact ht.pm i hii
        · intro i hii; rw [Finset.sum_range_succ, hd, ite_self, add_zero]; exact ht.rm i hii

theorem updateMass_fraction (p : Poly K) {i : Nat} (hi : i < p.n) :
    ((updateMass p).parts i).massFraction =
      (p.parts i).mass / innerLimit dblEps (∑ j ∈ range p.n, (p.parts j).mass) := by
  unfold updateMass
  simp only [total_eq_sum]
  rw [each_parts (by exact hi)]

theorem emits_zero_or (s : Reactor K) (k : Nat) : emits s k = 0 ∨ dblEps < emits s k := by
  unfold emits
  split_ifs with h
  · right; exact h.2
  · left; rfl

theorem draws_zero_or (s : Reactor K) (k : Nat) : draws s k = 0 ∨ draws s k < -dblEps := by
  unfold draws
  split_ifs with h
  · right; exact h.2
  · left; rfl

theorem sum_zero_or {n : Nat} {v : Nat → K} {e : K} (he : 0 < e) (hv : ∀ k, v k = 0 ∨ e < v k) :
    (∀ k, k < n → v k = 0) ∨ e < ∑ k ∈ range n, v k := by
  induction n with
  | zero => left; intro k hk; omega
  | succ n ih =>
    have hnn : 0 ≤ v n := by rcases hv n with h | h <;> linarith
    rcases ih with h | h
    · rcases hv n with h' | h'
      · left
        intro k hk
        rcases Nat.lt_succ_iff_lt_or_eq.1 hk with g | g
        · exact h k g
        · rw [g]; exact h'
      · right
        rw [Finset.sum_range_succ, Finset.sum_eq_zero (fun k hk => h k (mem_range.1 hk)), zero_add]
        exact h'
    · right
      rw [Finset.sum_range_succ]
      linarith

/-- Rate times mass fraction of the products and of the reactants after the output. -/
theorem output_rates {dt : K} {s : Reactor K} (hp : Placed s)
    (h0 : s.productsFlow = 0) (h1 : s.reactantsFlow = 0) (h2 : ∀ i, i < s.products.n → (s.products.parts i).mass = 0)
    (h3 : ∀ i, i < s.reactants.n → (s.reactants.parts i).mass = 0) :
    (outputToAtmosphere dt s).productsFlow = (∑ k ∈ range s.n, emits s k) / dt ∧
    (outputToAtmosphere dt s).reactantsFlow = (∑ k ∈ range s.n, draws s k) / dt ∧
    (∀ i, i < s.products.n → (outputToAtmosphere dt s).productsFlow *
        ((outputToAtmosphere dt s).products.parts i).massFraction =
      (∑ k ∈ range s.n, if (s.comp k).index = some i then emits s k else 0) / dt) ∧
    (∀ i, i < s.reactants.n → (outputToAtmosphere dt s).reactantsFlow *
        ((outputToAtmosphere dt s).reactants.parts i).massFraction =
      (∑ k ∈ range s.n, if (s.comp k).index = some i then draws s k else 0) / dt) := by
  have heps : (0 : K) < dblEps := dblEps_pos
  unfold outputToAtmosphere
  simp only []
  by_cases hneg : ((List.range s.n).all
      (fun k => (s.comp k).index.isNone || !decide (dblEps < |(s.comp k).mass|))) = true
  · rw [if_pos hneg]
    have hz : ∀ k, k < s.n → emits s k = 0 ∧ draws s k = 0 := by
      intro k hk
      have := List.all_eq_true.1 hneg k (List.mem_range.2 hk)
      unfold emits draws
      rw [Bool.or_eq_true] at this
      rcases this with h | h
      · rw [if_neg (fun c => by rw [Option.isNone_iff_eq_none] at h; rw [h] at c; simp at c),
          if_neg (fun c => by rw [Option.isNone_iff_eq_none] at h; rw [h] at c; simp at c)]
        exact ⟨rfl, rfl⟩
      · simp only [Bool.not_eq_true', decide_eq_false_iff_not, not_lt] at h
        rw [if_neg (fun c => by have := le_abs_self (s.comp k).mass; linarith [c.2]),
          if_neg (fun c => by have := neg_le_abs (s.comp k).mass; linarith [c.2])]
        exact ⟨rfl, rfl⟩
    have e1 : ∑ k ∈ range s.n, emits s k = 0 := Finset.sum_eq_zero (fun k hk => (hz k (mem_range.1 hk)).1)
    have e2 : ∑ k ∈ range s.n, draws s k = 0 := Finset.sum_eq_zero (fun k hk => (hz k (mem_range.1 hk)).2)
    refine ⟨by rw [e1, zero_div, h0], by rw [e2, zero_div, h1], ?_, ?_⟩
    · intro i _
      rw [h0, zero_mul, Finset.sum_eq_zero, zero_div]
      intro k hk
      rw [(hz k (mem_range.1 hk)).1, ite_self]
    · intro i _
      rw [h1, zero_mul, Finset.sum_eq_zero, zero_div]
      intro k hk
      rw [(hz k (mem_range.1 hk)).2, ite_self]
  · rw [if_neg hneg]
    have hf := filling_loop hp h0 h1 h2 h3
    generalize loop _ s.n s = t at hf ⊢
    refine ⟨by rw [hf.pf], by rw [hf.rf], ?_, ?_⟩
    · intro i hi
      have hin : i < t.products.n := by rw [hf.pn]; exact hi
      rw [updateMass_fraction _ hin, hf.pf]
      have hs : ∑ j ∈ range t.products.n, (t.products.parts j).mass = ∑ k ∈ range s.n, emits s k := by
        rw [hf.pn, Finset.sum_congr rfl (fun j hj => hf.pm j (mem_range.1 hj))]
        exact put_sum (fun k i hk h => hp.products k i hk h)
          (fun k _ h => by unfold emits; rw [if_neg]; rw [h]; simp)
      rw [hs, hf.pm i hi]
      rcases sum_zero_or (n := s.n) heps (emits_zero_or s) with h | h
      · have e1 : ∑ k ∈ range s.n, emits s k = 0 := Finset.sum_eq_zero (fun k hk => h k (mem_range.1 hk))
        rw [e1, zero_div, zero_mul, Finset.sum_eq_zero, zero_div]
        intro k hk
        rw [h k (mem_range.1 hk), ite_self]
      · rw [innerLimit_of_ge h.le, div_mul_div_comm, mul_comm dt, mul_div_mul_left _ _ (by linarith)]
    · intro i hi
      have hin : i < t.reactants.n := by rw [hf.rn]; exact hi
      rw [updateMass_fraction _ hin, hf.rf]
      have hs : ∑ j ∈ range t.reactants.n, (t.reactants.parts j).mass = ∑ k ∈ range s.n, draws s k := by
        rw [hf.rn, Finset.sum_congr rfl (fun j hj => hf.rm j (mem_range.1 hj))]
        exact put_sum (fun k i hk h => hp.reactants k i hk h)
          (fun k _ h => by unfold draws; rw [if_neg]; rw [h]; simp)
      rw [hs, hf.rm i hi]
      have hd : ∀ k, -draws s k = 0 ∨ dblEps < -draws s k := by
        intro k
        rcases draws_zero_or s k with h | h
        · left; rw [h, neg_zero]
        · right; linarith
      rcases sum_zero_or (n := s.n) heps hd with h | h
      · have h' : ∀ k, k < s.n → draws s k = 0 := fun k hk => neg_eq_zero.1 (h k hk)
        have e1 : ∑ k ∈ range s.n, draws s k = 0 := Finset.sum_eq_zero (fun k hk => h' k (mem_range.1 hk))
        rw [e1, zero_div, zero_mul, Finset.sum_eq_zero, zero_div]
        intro k hk
        rw [h' k (mem_range.1 hk), ite_self]
      · rw [Finset.sum_neg_distrib] at h
        have hneg' : ∑ k ∈ range s.n, draws s k ≠ 0 := by intro e; rw [e] at h; linarith
        rw [innerLimit_of_abs_ge (by rw [abs_of_neg (by linarith)]; exact h.le), div_mul_div_comm, mul_comm dt,
          mul_div_mul_left _ _ hneg']

end Gunns.Fluid
