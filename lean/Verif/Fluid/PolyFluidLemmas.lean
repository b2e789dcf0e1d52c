import Verif.Fluid.PolyFluidSpec

/-!
# Lemmas about mixtures
-/

set_option linter.unusedSectionVars false

namespace Gunns.Fluid

open Finset

variable {K : Type _} [Field K] [LinearOrder K] [IsStrictOrderedRing K]

theorem total_eq_sum (n : Nat) (f : Nat → K) : total n f = ∑ i ∈ range n, f i := by
  unfold total
  induction n with
  | zero => simp
  | succ n ih => rw [loop_succ, ih, Finset.sum_range_succ]

theorem each_parts {p : Poly K} {g : Nat → Part K → Part K} {i : Nat} (h : i < p.n) :
    (p.each g).parts i = g i (p.parts i) := if_pos h

theorem minFlowRate_pos : (0 : K) < minFlowRate := mul_pos dblEps_pos dblEps_pos

theorem moleLimit_pos : (0 : K) < moleLimit := mul_pos dblEps_pos dblEps_pos

theorem GoodWeights.pos {p : Poly K} (h : GoodWeights p) {i : Nat} (hi : i < p.n) : 0 < p.mw i :=
  lt_of_lt_of_le (mul_pos two_pos dblEps_pos) (h i hi).1

theorem sameTypes_iff {p src : Poly K} : sameTypes p src = true ↔ p.n = src.n ∧ ∀ i, i < p.n → p.types i = src.types i := by
  simp [sameTypes]

theorem total_congr {n : Nat} {f g : Nat → K} (h : ∀ i, i < n → f i = g i) : total n f = total n g := by
  rw [total_eq_sum, total_eq_sum]
  exact Finset.sum_congr rfl (fun i hi => h i (mem_range.1 hi))

/-- With fractions of sum at least a half, `Σ xᵢ / wᵢ` is at least `DBL_EPSILON`. -/
theorem perMass_ge {n : Nat} {x w : Nat → K} (hx : ∀ i, i < n → 0 ≤ x i)
    (hw : ∀ i, i < n → 0 < w i ∧ 2 * dblEps * w i ≤ 1) :
    2 * dblEps * ∑ i ∈ range n, x i ≤ ∑ i ∈ range n, x i / w i := by
  rw [Finset.mul_sum]
  refine Finset.sum_le_sum (fun i hi => ?_)
  have hi' := mem_range.1 hi
  obtain ⟨h1, h2⟩ := hw i hi'
  rw [le_div_iff₀ h1]
  have := mul_le_mul_of_nonneg_left h2 (hx i hi')
  linarith

theorem fltEps_le_half : (fltEps : K) ≤ 1 / 2 := by unfold fltEps; norm_num

theorem half_le_of_close {s : K} (h : |s - 1| ≤ fltEps) : 1 / 2 ≤ s := by
  have := (abs_le.1 h).1
  have := fltEps_le_half (K := K)
  linarith

theorem tol_half : (fractionTolerance : K) ≤ 1 / 2 := by unfold fractionTolerance; norm_num

/-- What `normalise` gives. -/
theorem normalise_spec {n : Nat} {f g : Nat → K} (h : normalise n f = some g) :
    |∑ i ∈ range n, f i - 1| ≤ fractionTolerance ∧
    ((|∑ i ∈ range n, f i - 1| ≤ fltEps ∧ g = f) ∨
     (fltEps < |∑ i ∈ range n, f i - 1| ∧ (g = fun i => f i / ∑ j ∈ range n, f j) ∧
       ∑ i ∈ range n, g i = 1)) ∧
    |∑ i ∈ range n, g i - 1| ≤ fltEps ∧ ((∀ i, i < n → 0 ≤ f i) → ∀ i, i < n → 0 ≤ g i) := by
  unfold normalise at h
  simp only [total_eq_sum] at h
  rw [abs_sub_comm] at h
  split_ifs at h with h1 h2
  · cases h
    have hle := not_lt.1 h1
    have hpos : (0 : K) < ∑ j ∈ range n, f j := by
      have := (abs_le.1 hle).1
      have := tol_half (K := K)
      linarith
    have hsum : ∑ i ∈ range n, f i / ∑ j ∈ range n, f j = 1 := by
      rw [← Finset.sum_div, div_self hpos.ne']
    refine ⟨hle, Or.inr ⟨h2, rfl, hsum⟩, ?_, ?_⟩
    · rw [hsum, sub_self, abs_zero]; exact fltEps_pos.le
    · intro hf i hi; exact div_nonneg (hf i hi) hpos.le
  · cases h
    exact ⟨not_lt.1 h1, Or.inl ⟨not_lt.1 h2, rfl⟩, not_lt.1 h2, fun hf => hf⟩

theorem normalise_some_of {n : Nat} {f : Nat → K} (h : |∑ i ∈ range n, f i - 1| ≤ fractionTolerance) :
    ∃ g, normalise n f = some g := by
  unfold normalise
  simp only [total_eq_sum]
  rw [abs_sub_comm]
  rw [if_neg (not_lt.2 h)]
  split_ifs
  · exact ⟨_, rfl⟩
  · exact ⟨_, rfl⟩

theorem normalise_of_close {n : Nat} {f : Nat → K} (h : |∑ i ∈ range n, f i - 1| ≤ fltEps) :
    normalise n f = some f := by
  have htol : (fltEps : K) ≤ fractionTolerance := by unfold fltEps fractionTolerance; norm_num
  unfold normalise
  simp only [total_eq_sum]
  rw [abs_sub_comm, if_neg (not_lt.2 (h.trans htol)), if_neg (not_lt.2 h)]

theorem normalise_none_iff {n : Nat} {f : Nat → K} :
    normalise n f = none ↔ fractionTolerance < |∑ i ∈ range n, f i - 1| := by
  constructor
  · intro h
    by_contra c
    obtain ⟨g, hg⟩ := normalise_some_of (not_lt.1 c)
    rw [hg] at h; cases h
  · intro h
    unfold normalise
    simp only [total_eq_sum]
    rw [abs_sub_comm, if_pos h]

/-- Mass fractions determine the mole fractions and the molecular weight. -/
theorem mole_of_mass {n : Nat} {x w : Nat → K} {m : K} (hm : m = ∑ i ∈ range n, x i / w i) (hm0 : 0 < m)
    (hw : ∀ i, i < n → 0 < w i) (hx : ∀ i, i < n → 0 ≤ x i) :
    (∀ i, i < n → 0 ≤ x i / w i / m) ∧ ∑ i ∈ range n, x i / w i / m = 1 ∧
    ∀ i, i < n → x i / w i / m * w i = x i * (1 / m) := by
  refine ⟨fun i hi => div_nonneg (div_nonneg (hx i hi) (hw i hi).le) hm0.le, ?_, ?_⟩
  · rw [← Finset.sum_div, ← hm, div_self hm0.ne']
  · intro i hi
    have := (hw i hi).ne'
    field_simp

/-- What `setMassAndMassFractions` leaves. -/
theorem setMassFractions_spec {p q : Poly K} {mass : K} {f : Nat → K} (hw : GoodWeights p)
    (hf : ∀ i, i < p.n → 0 ≤ f i) (h : setMassAndMassFractions mass f p = .ok q) :
    Mixed q ∧ ContentShared q ∧ FlowShared q ∧ q.mass = mass ∧ q.flowRate = p.flowRate ∧ SameFluids p q ∧
      ∑ i ∈ range q.n, (q.parts i).moleFraction = 1 ∧
      ∃ g, normalise p.n f = some g ∧ ∀ i, i < p.n → (q.parts i).massFraction = g i := by
  unfold setMassAndMassFractions at h
  cases hn : normalise p.n f with
  | none => rw [hn] at h; cases h
  | some g =>
    rw [hn] at h
    obtain ⟨-, -, hclose, hg⟩ := normalise_spec hn
    replace hg := hg hf
    have hS := half_le_of_close hclose
    have hw' : ∀ i, i < p.n → 0 < p.mw i ∧ 2 * dblEps * p.mw i ≤ 1 := fun i hi => ⟨hw.pos hi, (hw i hi).2⟩
    have hge := perMass_ge hg hw'
    have hdb := dblEps_pos (K := K)
    have hge2 : dblEps ≤ ∑ i ∈ range p.n, g i / p.mw i := by
      have := mul_le_mul_of_nonneg_left hS (mul_pos two_pos hdb).le
      linarith
    have hm : innerLimit dblEps (total p.n (fun i => g i / p.mw i)) = ∑ i ∈ range p.n, g i / p.mw i := by
      rw [total_eq_sum]; exact innerLimit_of_ge hge2
    simp only [hm] at h
    have hm0 : 0 < ∑ i ∈ range p.n, g i / p.mw i := lt_of_lt_of_le hdb hge2
    generalize hM : ∑ i ∈ range p.n, g i / p.mw i = m at *
    obtain ⟨m1, m2, m3⟩ := mole_of_mass hM.symm hm0 (fun i hi => hw.pos hi) hg
    cases h
    have hpart : ∀ i, i < p.n → (Poly.each { (Poly.each { p with mass := mass } (fun i c => { c with
            massFraction := g i
            moleFraction := g i / p.mw i })) with
          mweight := 1 / m
          mole := mass / (1 / m) }
        (fun i c => { Part.setMole (p.mw i) (c.moleFraction / m * (mass / (1 / m))) c with
          moleFraction := c.moleFraction / m
          flowRate := c.massFraction * p.flowRate })).parts i =
        { massFraction := g i, moleFraction := g i / p.mw i / m, temperature := (p.parts i).temperature,
          pressure := (p.parts i).pressure, flowRate := g i * p.flowRate,
          mole := g i / p.mw i / m * (mass / (1 / m)), mass := g i / p.mw i / m * (mass / (1 / m)) * p.mw i } := by
      intro i hi
      rw [each_parts (by exact hi)]
      rw [each_parts (by exact hi)]
      rfl
    refine ⟨⟨?_, ?_, ?_, ?_⟩, ⟨?_, ?_, ?_⟩, ?_, rfl, rfl, ?_, ?_, g, rfl, ?_⟩
    · intro i hi; rw [hpart i hi]; exact ⟨hg i hi, m1 i hi⟩
    · show |∑ i ∈ range p.n, _ - 1| ≤ fltEps
      rw [Finset.sum_congr rfl (fun i hi => by rw [hpart i (mem_range.1 hi)])]
      exact hclose
    · show |∑ i ∈ range p.n, _ - 1| ≤ fltEps
      rw [Finset.sum_congr rfl (fun i hi => by rw [hpart i (mem_range.1 hi)])]
      show |∑ i ∈ range p.n, g i / p.mw i / m - 1| ≤ fltEps
      rw [m2, sub_self, abs_zero]; exact fltEps_pos.le
    · refine ⟨one_div_pos.2 hm0, ?_⟩
      intro i hi; rw [hpart i hi]; exact m3 i hi
    · intro i hi; rw [hpart i hi]
      have := (hw.pos hi).ne'
      show g i / p.mw i / m * (mass / (1 / m)) * p.mw i = g i * mass
      field_simp
    · intro i hi; rw [hpart i hi]; rfl
    · show mass / (1 / m) * (1 / m) = mass
      field_simp
    · intro i hi; rw [hpart i hi]; rfl
    · exact ⟨rfl, fun i _ => ⟨rfl, rfl⟩⟩
    · show ∑ i ∈ range p.n, _ = 1
      rw [Finset.sum_congr rfl (fun i hi => by rw [hpart i (mem_range.1 hi)])]
      exact m2
    · intro i hi; rw [hpart i hi]

/-- What `setMoleAndMoleFractions` leaves. -/
theorem setMoleFractions_spec {p q : Poly K} {mole : K} {f : Nat → K} (hw : GoodWeights p)
    (hf : ∀ i, i < p.n → 0 ≤ f i) (h : setMoleAndMoleFractions mole f p = .ok q) :
    Mixed q ∧ ContentShared q ∧ FlowShared q ∧ q.mole = mole ∧ q.flowRate = p.flowRate ∧ SameFluids p q ∧
      ∑ i ∈ range q.n, (q.parts i).massFraction = 1 ∧
      ∃ g, normalise p.n f = some g ∧ ∀ i, i < p.n → (q.parts i).moleFraction = g i := by
  unfold setMoleAndMoleFractions at h
  cases hn : normalise p.n f with
  | none => rw [hn] at h; cases h
  | some g =>
    rw [hn] at h
    obtain ⟨-, -, hclose, hg⟩ := normalise_spec hn
    replace hg := hg hf
    have hS := half_le_of_close hclose
    have hdb := dblEps_pos (K := K)
    have hge2 : dblEps ≤ ∑ i ∈ range p.n, g i * p.mw i := by
      have : 2 * dblEps * ∑ i ∈ range p.n, g i ≤ ∑ i ∈ range p.n, g i * p.mw i := by
        rw [Finset.mul_sum]
        refine Finset.sum_le_sum (fun i hi => ?_)
        have hi' := mem_range.1 hi
        have := mul_le_mul_of_nonneg_left (hw i hi').1 (hg i hi')
        linarith
      have h2 := mul_le_mul_of_nonneg_left hS (mul_pos two_pos hdb).le
      linarith
    have hm : innerLimit dblEps (total p.n (fun i => g i * p.mw i)) = ∑ i ∈ range p.n, g i * p.mw i := by
      rw [total_eq_sum]; exact innerLimit_of_ge hge2
    simp only [hm] at h
    have hm0 : 0 < ∑ i ∈ range p.n, g i * p.mw i := lt_of_lt_of_le hdb hge2
    generalize hM : ∑ i ∈ range p.n, g i * p.mw i = m at *
    cases h
    have hpart : ∀ i, i < p.n → (Poly.each { (Poly.each { p with mole := mole } (fun i c => { c with
            moleFraction := g i
            massFraction := g i * p.mw i })) with
          mweight := m
          mass := mole * m }
        (fun i c => { Part.setMass (p.mw i) (c.massFraction / m * (mole * m)) c with
          massFraction := c.massFraction / m
          flowRate := c.massFraction / m * p.flowRate })).parts i =
        { massFraction := g i * p.mw i / m, moleFraction := g i, temperature := (p.parts i).temperature,
          pressure := (p.parts i).pressure, flowRate := g i * p.mw i / m * p.flowRate,
          mass := g i * p.mw i / m * (mole * m), mole := g i * p.mw i / m * (mole * m) / p.mw i } := by
      intro i hi
      rw [each_parts (by exact hi)]
      rw [each_parts (by exact hi)]
      rfl
    have hsum : ∑ i ∈ range p.n, g i * p.mw i / m = 1 := by rw [← Finset.sum_div, hM, div_self hm0.ne']
    refine ⟨⟨?_, ?_, ?_, ?_⟩, ⟨?_, ?_, ?_⟩, ?_, rfl, rfl, ?_, ?_, g, rfl, ?_⟩
    · intro i hi; rw [hpart i hi]
      exact ⟨div_nonneg (mul_nonneg (hg i hi) (hw.pos hi).le) hm0.le, hg i hi⟩
    · show |∑ i ∈ range p.n, _ - 1| ≤ fltEps
      rw [Finset.sum_congr rfl (fun i hi => by rw [hpart i (mem_range.1 hi)])]
      show |∑ i ∈ range p.n, g i * p.mw i / m - 1| ≤ fltEps
      rw [hsum, sub_self, abs_zero]; exact fltEps_pos.le
    · show |∑ i ∈ range p.n, _ - 1| ≤ fltEps
      rw [Finset.sum_congr rfl (fun i hi => by rw [hpart i (mem_range.1 hi)])]
      exact hclose
    · refine ⟨hm0, ?_⟩
      intro i hi; rw [hpart i hi]
      show g i * p.mw i = g i * p.mw i / m * m
      rw [div_mul_cancel₀ _ hm0.ne']
    · intro i hi; rw [hpart i hi]; rfl
    · intro i hi; rw [hpart i hi]
      exact div_mul_cancel₀ _ (hw.pos hi).ne'
    · rfl
    · intro i hi; rw [hpart i hi]; rfl
    · exact ⟨rfl, fun i _ => ⟨rfl, rfl⟩⟩
    · show ∑ i ∈ range p.n, _ = 1
      rw [Finset.sum_congr rfl (fun i hi => by rw [hpart i (mem_range.1 hi)])]
      exact hsum
    · intro i hi; rw [hpart i hi]

/-- The flow rate of a constituent after adding. -/
theorem partAdd_flow (src c : Part K) (flow : K) :
    (Part.addState src flow c).flowRate =
      c.flowRate + (if |flow| < minFlowRate then src.flowRate else flow) := by
  unfold Part.addState
  simp only []
  split_ifs <;> rfl

theorem partAdd_other (src c : Part K) (flow : K) :
    (Part.addState src flow c).mass = c.mass ∧ (Part.addState src flow c).mole = c.mole := by
  unfold Part.addState
  simp only []
  split_ifs <;> exact ⟨rfl, rfl⟩

/-- What `addState` does if it does not throw. -/
theorem addState_ok {temp : (Nat → K) → K → K} {src p q : Poly K} {flow : K} (h : addState temp src flow p = .ok q) :
    p.n = src.n ∧ (∀ i, i < p.n → p.types i = src.types i) ∧
    q.flowRate = p.flowRate + sourceFlow src flow ∧ dblEps ≤ |q.flowRate| ∧ q.n = p.n ∧ q.types = p.types ∧ q.mw = p.mw ∧
    q.enthalpy = src.enthalpy * sourceFlow src flow / q.flowRate + p.enthalpy * p.flowRate / q.flowRate ∧
    (∀ i, i < p.n → (q.parts i).flowRate = (p.parts i).flowRate +
      (if |sourceFlow src flow * (src.parts i).massFraction| < minFlowRate then (src.parts i).flowRate
       else sourceFlow src flow * (src.parts i).massFraction)) ∧
    (∀ i, i < p.n → (q.parts i).massFraction = (q.parts i).flowRate / q.flowRate) ∧
    q.mweight = q.flowRate / innerLimit moleLimit (∑ i ∈ range p.n, (q.parts i).flowRate / p.mw i) ∧
    (∀ i, i < p.n → (q.parts i).moleFraction = (q.parts i).massFraction / p.mw i /
      innerLimit moleLimit (∑ j ∈ range p.n, (q.parts j).massFraction / p.mw j)) ∧
    q.mass = p.mass ∧ q.mole = p.mole ∧
    q.temperature = temp (fun i => ((p.each (fun i c => Part.addState (src.parts i)
      (sourceFlow src flow * (src.parts i).massFraction) c)).parts i).flowRate / q.flowRate) q.enthalpy := by
  unfold addState at h
  by_cases hs : sameTypes p src
  · simp only [hs, Bool.not_true, Bool.false_eq_true, if_false] at h
    split_ifs at h with h1
    cases h
    obtain ⟨hn, ht⟩ := sameTypes_iff.1 hs
    have hq : ∀ i, i < p.n → ((Poly.each { p with flowRate := p.flowRate + sourceFlow src flow }
        (fun i c => Part.addState (src.parts i) (sourceFlow src flow * (src.parts i).massFraction) c)).parts i) =
        Part.addState (src.parts i) (sourceFlow src flow * (src.parts i).massFraction) (p.parts i) := by
      intro i hi; rw [each_parts (by exact hi)]
    refine ⟨hn, ht, rfl, not_lt.1 h1, rfl, rfl, rfl, rfl, ?_, ?_, ?_, ?_, rfl, rfl, rfl⟩
    · intro i hi
      rw [each_parts (by exact hi)]
      show (Part.flowRate _) = _
      rw [hq i hi, partAdd_flow]
    · intro i hi
      rw [each_parts (by exact hi)]
      rfl
    · show _ / innerLimit moleLimit (total p.n _) = _
      rw [total_eq_sum]
      congr 2
      refine Finset.sum_congr rfl (fun i hi => ?_)
      simp only [Poly.each, mem_range.1 hi, if_true]
    · intro i hi
      rw [each_parts (by exact hi)]
      show _ / _ / innerLimit moleLimit (total p.n _) = _
      rw [total_eq_sum]
      congr 2
      refine Finset.sum_congr rfl (fun j hj => ?_)
      simp only [Poly.each, mem_range.1 hj, if_true]
  · simp only [hs, Bool.not_false, if_true] at h
    cases h

/-- Adding is exact for each constituent if no guard against small flow rates acts. -/
theorem addState_flows {temp : (Nat → K) → K → K} {src p q : Poly K} {flow : K}
    (h : addState temp src flow p = .ok q) (hs : FlowShared src) (ht : NoTinyParts src (sourceFlow src flow)) :
    ∀ i, i < p.n → (q.parts i).flowRate =
      (p.parts i).flowRate + sourceFlow src flow * (src.parts i).massFraction := by
  obtain ⟨hn, -, -, -, -, -, -, -, h1, -⟩ := addState_ok h
  intro i hi
  rw [h1 i hi]
  rw [hn] at hi
  congr 1
  rcases ht i hi with h0 | h0
  · rw [hs i hi, h0]; simp
  · rw [if_neg (not_lt.2 h0)]

/-- The mixture after adding is proper if the constituents' flow rates are not negative and add up. -/
theorem addState_mixed {temp : (Nat → K) → K → K} {src p q : Poly K} {flow : K}
    (h : addState temp src flow p = .ok q) (hw : GoodWeights p) (hpos : 0 < q.flowRate)
    (hnn : ∀ i, i < p.n → 0 ≤ (q.parts i).flowRate)
    (hsum : |∑ i ∈ range p.n, (q.parts i).flowRate - q.flowRate| ≤ fltEps * q.flowRate) :
    Mixed q ∧ FlowShared q ∧ ∑ i ∈ range q.n, (q.parts i).moleFraction = 1 ∧
      q.flowRate / q.mweight = ∑ i ∈ range q.n, (q.parts i).flowRate / q.mw i := by
  obtain ⟨-, -, -, hbig, hqn, -, hmw, -, -, hx, hweight, hmole, -, -, -⟩ := addState_ok h
  rw [abs_of_pos hpos] at hbig
  have hxsum : ∑ i ∈ range p.n, (q.parts i).massFraction = (∑ i ∈ range p.n, (q.parts i).flowRate) / q.flowRate := by
    rw [Finset.sum_div]
    exact Finset.sum_congr rfl (fun i hi => hx i (mem_range.1 hi))
  have hclose : |∑ i ∈ range p.n, (q.parts i).massFraction - 1| ≤ fltEps := by
    have : ∑ i ∈ range p.n, (q.parts i).massFraction - 1 =
        (∑ i ∈ range p.n, (q.parts i).flowRate - q.flowRate) / q.flowRate := by
      rw [hxsum, sub_div, div_self hpos.ne']
    rw [this, abs_div, abs_of_pos hpos, div_le_iff₀ hpos]
    exact hsum
  have hxnn : ∀ i, i < p.n → 0 ≤ (q.parts i).massFraction := fun i hi => by
    rw [hx i hi]; exact div_nonneg (hnn i hi) hpos.le
  have hw' : ∀ i, i < p.n → 0 < p.mw i ∧ 2 * dblEps * p.mw i ≤ 1 := fun i hi => ⟨hw.pos hi, (hw i hi).2⟩
  have hge := perMass_ge hxnn hw'
  have hS := half_le_of_close hclose
  have hdb := dblEps_pos (K := K)
  have hdb1 := dblEps_lt_one (K := K)
  have hge2 : dblEps ≤ ∑ i ∈ range p.n, (q.parts i).massFraction / p.mw i := by
    have := mul_le_mul_of_nonneg_left hS (mul_pos two_pos hdb).le
    linarith
  have hml : (moleLimit : K) ≤ dblEps := by
    unfold moleLimit
    have := mul_le_mul_of_nonneg_left hdb1.le hdb.le
    linarith
  have hM0 : 0 < ∑ i ∈ range p.n, (q.parts i).massFraction / p.mw i := lt_of_lt_of_le hdb hge2
  have hlim1 := innerLimit_of_ge (hml.trans hge2)
  have hflowsum : ∑ i ∈ range p.n, (q.parts i).flowRate / p.mw i =
      q.flowRate * ∑ i ∈ range p.n, (q.parts i).massFraction / p.mw i := by
    rw [Finset.mul_sum]
    refine Finset.sum_congr rfl (fun i hi => ?_)
    rw [hx i (mem_range.1 hi)]
    field_simp
  have hge3 : moleLimit ≤ ∑ i ∈ range p.n, (q.parts i).flowRate / p.mw i := by
    rw [hflowsum]
    unfold moleLimit
    exact mul_le_mul hbig hge2 hdb.le hpos.le
  have hlim2 := innerLimit_of_ge hge3
  rw [hlim2, hflowsum] at hweight
  have hwt : q.mweight = 1 / ∑ i ∈ range p.n, (q.parts i).massFraction / p.mw i := by
    rw [hweight]; field_simp
  rw [hlim1] at hmole
  obtain ⟨m1, m2, m3⟩ := mole_of_mass rfl hM0 (fun i hi => hw.pos hi) hxnn
  have hmsum : ∑ i ∈ range p.n, (q.parts i).moleFraction = 1 := by
    rw [← m2]; exact Finset.sum_congr rfl (fun i hi => hmole i (mem_range.1 hi))
  refine ⟨⟨?_, ?_, ?_, ?_⟩, ?_, ?_, ?_⟩
  · intro i hi
    rw [hqn] at hi
    exact ⟨hxnn i hi, by rw [hmole i hi]; exact m1 i hi⟩
  · rw [hqn]; exact hclose
  · rw [hqn, hmsum, sub_self, abs_zero]; exact fltEps_pos.le
  · refine ⟨by rw [hwt]; exact one_div_pos.2 hM0, ?_⟩
    intro i hi
    rw [hqn] at hi
    rw [hmole i hi, hmw, m3 i hi, hwt]
  · intro i hi
    rw [hqn] at hi
    rw [hx i hi, div_mul_cancel₀ _ hpos.ne']
  · rw [hqn]; exact hmsum
  · rw [hqn, hmw, hflowsum, hwt]
    field_simp

end Gunns.Fluid
