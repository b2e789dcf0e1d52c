import Verif.Fluid.H2Redox
import Mathlib.Tactic.Linarith
import Mathlib.Tactic.FieldSimp
import Mathlib.Tactic.Ring
import Mathlib.Tactic.NormNum

/-!
# C87: a hydrogen cell keeps the stoichiometry, and its trip is a trap

Two molecules of hydrogen and one of oxygen for two of water, in both directions; what goes into the nodes is what the solver was told.
The trip is for ever, and an idle cell in dry hydrogen trips.
-/

namespace Gunns.Props

open Gunns Gunns.Redox
open Gunns.Interp (limitRange)

set_option linter.unusedSectionVars false

variable {K : Type*} [Field K] [LinearOrder K] [IsStrictOrderedRing K]

/-- The mass that appears when one mole of water is made. -/
def c87gap (c : Config K) : K := c.wH2O - (c.wH2 + c.wO2 / 2)

/-- **Stoichiometry, source vector and transport agree.**  In any pass half as many moles of oxygen as of hydrogen are made or used and
as many of water the other way round; the solver is told no moles at port 0 and those of the oxygen at port 1; the nodes are given the
masses of these moles; the heat is the reaction heat of the hydrogen used. -/
theorem c87_stoichiometry (c : Config K) (q : Pass K) (s : Cell K) (h2 : 0 < c.wH2) :
    (step c q s).nO2 = (step c q s).nH2 / 2 ∧ (step c q s).nH2O = -(step c q s).nH2 ∧
      (step c q s).source0 = 0 ∧ (step c q s).source1 = (step c q s).nO2 ∧
      transport (step c q s) = ((step c q s).nH2 * c.wH2, (step c q s).nH2O * c.wH2O, (step c q s).nO2 * c.wO2) ∧
      (step c q s).heat = reactionHeat * -(step c q s).nH2 := by
  unfold step transport
  simp only
  by_cases h : ((s.tripped || starved q) || decide (|h2Rate c q| < 100 * dblEps)) = true
  · simp only [h, if_true]
    have : ¬(100 * dblEps : K) ≤ |(0 : K)| := by
      rw [abs_zero]; push Not
      have := dblEps_pos (K := K); linarith
    refine ⟨by simp, by simp, by simp, by simp, ?_, trivial⟩
    rw [if_neg this]; simp
  · simp only [h, if_false, Bool.false_eq_true]
    have hb : ¬|h2Rate c q| < 100 * dblEps := by
      intro hb; apply h; simp [hb]
    refine ⟨by ring, trivial, by ring, trivial, ?_, trivial⟩
    rw [if_pos (not_lt.1 hb)]
    rw [div_mul_cancel₀ _ h2.ne']

/-- **Mass is kept exactly as far as the molecular weights balance**: what the three flows put into the nodes together is the moles of
water times the gap. -/
theorem c87_mass (c : Config K) (q : Pass K) (s : Cell K) (h2 : 0 < c.wH2) :
    (transport (step c q s)).1 + (transport (step c q s)).2.1 + (transport (step c q s)).2.2
      = (step c q s).nH2O * c87gap c := by
  obtain ⟨h1, h3, -, -, h4, -⟩ := c87_stoichiometry c q s h2
  rw [h4, h1, h3]
  unfold c87gap
  ring

/-- With the weights of ms-utils/properties/FluidProperties.cpp:113-121 each kilomole of water makes 20 milligrams. -/
theorem c87_gap (c : Config ℚ) (h1 : c.wH2 = 201588 / 100000) (h2 : c.wO2 = 319988 / 10000) (h3 : c.wH2O = 180153 / 10000) :
    c87gap c = 2 / 100000 := by
  unfold c87gap; rw [h1, h2, h3]; norm_num

/-! ## Rate and efficiency -/

/-- The efficiency is at least `DBL_EPSILON` and at most one, and the configured one less the blockage in between. -/
theorem c87_efficiency (c : Config K) (q : Pass K) (hc : c.Valid) (hb : ∀ b, q.block = some b → 0 ≤ b ∧ b ≤ 1) :
    dblEps ≤ efficiency c q ∧ efficiency c q ≤ 1 ∧
      (dblEps ≤ c.maxEff * (1 - q.block.getD 0) → efficiency c q = c.maxEff * (1 - q.block.getD 0)) := by
  obtain ⟨-, -, -, he, he1⟩ := hc
  have hpos : 0 < c.maxEff := lt_of_lt_of_le dblEps_pos he
  have hd1 : (dblEps : K) ≤ 1 := dblEps_lt_one.le
  unfold efficiency limitRange
  cases hq : q.block with
  | none =>
    simp only [Option.getD_none, sub_zero, mul_one]
    refine ⟨le_max_right _ _, max_le (min_le_right _ _) hd1, fun h => ?_⟩
    rw [min_eq_left he1, max_eq_left h]
  | some b =>
    simp only [Option.getD_some]
    have hb' := hb b hq
    have : c.maxEff * (1 - b) ≤ 1 := by nlinarith
    refine ⟨le_max_right _ _, max_le (min_le_right _ _) hd1, fun h => ?_⟩
    rw [min_eq_left this, max_eq_left h]

/-- **Fuel cell and electrolyser**: for the same current a fuel cell uses at least the ideal hydrogen and an electrolyser makes at most
it; a fuel cell has negative and an electrolyser positive hydrogen rates. -/
theorem c87_rate (c : Config K) (q : Pass K) (hc : c.Valid) (hb : ∀ b, q.block = some b → 0 ≤ b ∧ b ≤ 1) :
    (0 < q.current → h2Rate c q = -(q.current * c.rate * c.cells / efficiency c q) ∧
      h2Rate c q ≤ -(q.current * c.rate * c.cells)) ∧
    (q.current ≤ 0 → h2Rate c q = -q.current * c.rate * c.cells * efficiency c q ∧ 0 ≤ h2Rate c q ∧
      h2Rate c q ≤ -q.current * c.rate * c.cells) := by
  obtain ⟨e1, e2, -⟩ := c87_efficiency c q hc hb
  have e0 : 0 < efficiency c q := lt_of_lt_of_le dblEps_pos e1
  obtain ⟨-, -, hr, -, -⟩ := hc
  have hr0 : 0 < c.rate := lt_of_lt_of_le dblEps_pos hr
  have hn : (0 : K) ≤ (c.cells : K) := Nat.cast_nonneg _
  constructor
  · intro h
    unfold h2Rate
    rw [if_pos h]
    have h1 : 0 ≤ q.current * c.rate * c.cells := mul_nonneg (mul_nonneg h.le hr0.le) hn
    have h2 : q.current * c.rate * c.cells ≤ q.current * c.rate * c.cells / efficiency c q := by
      rw [le_div_iff₀ e0]; nlinarith
    have h3 : -q.current * c.rate * c.cells / efficiency c q = -(q.current * c.rate * c.cells / efficiency c q) := by ring
    rw [h3]
    exact ⟨rfl, by linarith⟩
  · intro h
    unfold h2Rate
    rw [if_neg (not_lt.2 h)]
    have h1 : 0 ≤ -q.current * c.rate * c.cells := mul_nonneg (mul_nonneg (by linarith) hr0.le) hn
    exact ⟨rfl, mul_nonneg h1 e0.le, by nlinarith⟩

/-- What a cell that is not tripped takes of hydrogen is this rate, unless it is less than the least flow, when it takes nothing. -/
theorem c87_taken (c : Config K) (q : Pass K) (s : Cell K) (h : (step c q s).tripped = false) :
    (transport (step c q s)).1 = if |h2Rate c q| < 100 * dblEps then 0 else h2Rate c q := by
  have h' : (s.tripped || starved q) = false := h
  unfold step transport
  simp only [h', Bool.false_or, decide_eq_true_eq]
  by_cases hr : |h2Rate c q| < 100 * dblEps
  · simp only [if_pos hr]
    have : ¬(100 * dblEps : K) ≤ |(0 : K)| := by
      rw [abs_zero]; push Not
      have := dblEps_pos (K := K); linarith
    rw [if_neg this]
  · simp only [if_neg hr]
    push Not at hr
    rw [if_pos hr]

/-- **Failure: a fully blocked fuel cell uses up hydrogen without end**: the blockage is of the efficiency, which stops at `DBL_EPSILON`,
so the hydrogen used is that of an ideal cell times 2^52. -/
theorem c87_full_blockage (c : Config K) (q : Pass K) (hq : q.block = some 1) (hi : 0 < q.current) :
    h2Rate c q = -(q.current * c.rate * c.cells * 2 ^ 52) := by
  have he : efficiency c q = dblEps := by
    unfold efficiency limitRange
    rw [hq]
    simp only [sub_self, mul_zero]
    rw [min_eq_left zero_le_one, max_eq_right dblEps_pos.le]
  unfold h2Rate
  rw [if_pos hi, he]
  unfold dblEps
  field_simp

/-- **Failure: nothing limits what is taken by what is there**: the check is of partial pressures only, so with any amount of hydrogen in
the node there is a current with which one step takes more. -/
theorem c87_no_limit (c : Config K) (s : Cell K) (hs : s.tripped = false) (hc : c.Valid)
    (pH2 pH2O pO2 mass dt : K) (h1 : 1 / 1000 ≤ pH2) (h3 : 1 / 1000 ≤ pO2) (hm : 0 ≤ mass) (hdt : 0 < dt) :
    ∃ i : K, (transport (step c { current := i, block := none, pH2 := pH2, pH2O := pH2O, pO2 := pO2 } s)).1 * dt < -mass := by
  have hrate : 0 < c.rate := lt_of_lt_of_le dblEps_pos hc.2.2.1
  have hcells : (1 : K) ≤ (c.cells : K) := by exact_mod_cast hc.1
  have hk : 0 < c.rate * c.cells := by nlinarith
  obtain ⟨i, hi⟩ : ∃ i : K, i = (mass / dt + 1 + 100 * dblEps) / (c.rate * c.cells) := ⟨_, rfl⟩
  refine ⟨i, ?_⟩
  have hd := dblEps_pos (K := K)
  have hmd : 0 ≤ mass / dt := div_nonneg hm hdt.le
  have hi0 : 0 < i := by rw [hi]; apply div_pos _ hk; linarith
  set q : Pass K := { current := i, block := none, pH2 := pH2, pH2O := pH2O, pO2 := pO2 } with hq
  have hle := ((c87_rate c q hc (by intro b hb; rw [hq] at hb; cases hb)).1 hi0).2
  have he : i * (c.rate * c.cells) = mass / dt + 1 + 100 * dblEps := by rw [hi]; exact div_mul_cancel₀ _ hk.ne'
  have hle' : h2Rate c q ≤ -(mass / dt + 1 + 100 * dblEps) := by
    have : q.current * c.rate * c.cells = mass / dt + 1 + 100 * dblEps := by rw [mul_assoc]; exact he
    rw [this] at hle; exact hle
  have hst : starved q = false := by
    unfold starved
    rw [if_pos hi0]
    simp [hq]
    constructor
    · simpa using h1
    · simpa using h3
  have habs : ¬|h2Rate c q| < 100 * dblEps := by
    rw [abs_of_neg (by linarith)]; push Not; linarith
  have hoff : ((s.tripped || starved q) || decide (|h2Rate c q| < 100 * dblEps)) = false := by
    rw [hs, hst]; simp [habs]
  have ht : (transport (step c q s)).1 = h2Rate c q := by
    unfold transport step
    simp only [hoff, Bool.false_eq_true, if_false]
    rw [if_pos (not_lt.1 habs)]
  rw [ht]
  have hx : h2Rate c q < -(mass / dt) := by linarith
  calc h2Rate c q * dt < -(mass / dt) * dt := by nlinarith
    _ = -mass := by rw [neg_mul, div_mul_cancel₀ _ hdt.ne']

/-! ## The trip -/

private theorem tripped_run (c : Config K) (qs : List (Pass K)) (s : Cell K) :
    (run c qs s).tripped = (s.tripped || qs.any starved) := by
  unfold run
  induction qs generalizing s with
  | nil => simp
  | cons q t ih =>
    rw [List.foldl_cons, ih]
    simp only [step, List.any_cons, Bool.or_assoc]

/-- **A trip is for ever**: the cell is tripped exactly if it was, or the reactants were short in some pass since, and in a pass of a
tripped cell nothing flows, and there are neither volts nor heat. -/
theorem c87_latched (c : Config K) (qs : List (Pass K)) (q : Pass K) (s : Cell K) :
    ((run c qs s).tripped = true ↔ s.tripped = true ∨ ∃ p ∈ qs, starved p = true) ∧
    ((run c (qs ++ [q]) s).tripped = true →
      transport (run c (qs ++ [q]) s) = (0, 0, 0) ∧ (run c (qs ++ [q]) s).volts = 0 ∧ (run c (qs ++ [q]) s).heat = 0 ∧
      (run c (qs ++ [q]) s).source0 = 0 ∧ (run c (qs ++ [q]) s).source1 = 0) := by
  constructor
  · rw [tripped_run]
    simp [List.any_eq_true]
  · have hr : run c (qs ++ [q]) s = step c q (run c qs s) := by unfold run; rw [List.foldl_append]; rfl
    rw [hr]
    intro h
    have ht : ((run c qs s).tripped || starved q) = true := h
    have hz : ¬(100 * dblEps : K) ≤ |(0 : K)| := by
      rw [abs_zero]; push Not
      have := dblEps_pos (K := K); linarith
    unfold transport step
    simp only [ht, Bool.true_or, if_true]
    refine ⟨?_, trivial, by simp, by simp, trivial⟩
    rw [if_neg hz]

/-- An untripped cell has its voltage whatever the current. -/
theorem c87_volts (c : Config K) (q : Pass K) (s : Cell K) (h : (step c q s).tripped = false) :
    (step c q s).volts = c.volts * c.cells := by
  have h' : (s.tripped || starved q) = false := h
  unfold step
  simp only [h', Bool.false_eq_true, if_false]

/-- **Failure: an idle cell in dry hydrogen trips.**  One pass without current in a node with less than a pascal of water, as before a
fuel cell is loaded for the first time, and in all passes after it the cell is dead, whatever hydrogen and oxygen there are. -/
theorem c87_dry_start (c : Config K) (idle : Pass K) (qs : List (Pass K)) (s : Cell K) (h0 : idle.current = 0)
    (hw : idle.pH2O < 1 / 1000) :
    (run c (idle :: qs) s).tripped = true ∧ transport (run c (idle :: qs) s) = (0, 0, 0) ∧ (run c (idle :: qs) s).volts = 0 := by
  have hst : starved idle = true := by
    unfold starved
    rw [if_neg (by rw [h0]; exact lt_irrefl _)]
    simpa using hw
  have ht : (run c (idle :: qs) s).tripped = true := by
    rw [tripped_run]; simp [hst]
  refine ⟨ht, ?_⟩
  rcases List.eq_nil_or_concat qs with h | ⟨l, q, h⟩
  · subst h
    have := (c87_latched c [] idle s).2 ht
    exact ⟨this.1, this.2.1⟩
  · rw [h, List.concat_eq_append, ← List.cons_append] at ht ⊢
    have := (c87_latched c (idle :: l) q s).2 ht
    exact ⟨this.1, this.2.1⟩

/-! ## Examples -/

/-- A stack of 10 cells. -/
private def c87config : Config ℚ :=
  { cells := 10, volts := 7 / 10, rate := 1 / 100, maxEff := 1 / 2, wH2 := 2, wO2 := 32, wH2O := 18 }

private def c87cell : Cell ℚ :=
  { tripped := false, eff := 0, mH2 := 0, mO2 := 0, mH2O := 0, nH2 := 0, nO2 := 0, nH2O := 0, volts := 0, heat := 0, source0 := 0,
    source1 := 0 }

/-- A fuel cell at 10 A uses 2 of hydrogen and 16 of oxygen for 18 of water. -/
example : transport (step c87config { current := 10, block := none, pH2 := 100, pH2O := 0, pO2 := 100 } c87cell) = (-2, 18, -16) := by
  decide +kernel

/-- The hypotheses of the theorems on rates and efficiency. -/
example : c87config.Valid := by
  refine ⟨?_, ?_, ?_, ?_, ?_⟩ <;> decide +kernel

/-- An idle cell, loaded in the next pass, with plenty of hydrogen and oxygen. -/
example : (run c87config [{ current := 0, block := none, pH2 := 100, pH2O := 0, pO2 := 100 },
    { current := 10, block := none, pH2 := 100, pH2O := 0, pO2 := 100 }] c87cell).volts = 0 :=
  (c87_dry_start c87config _ _ c87cell rfl (by norm_num)).2.2

/-- The same without the idle pass. -/
example : (run c87config [{ current := 10, block := none, pH2 := 100, pH2O := 0, pO2 := 100 }] c87cell).volts = 7 := by
  decide +kernel

end Gunns.Props
