import Verif.Fluid.SeparatorLemmas

/-!
# A pass of the separator
-/

set_option linter.unusedSectionVars false

namespace Gunns.Fluid

open Finset

variable {K : Type _} [Field K] [LinearOrder K] [IsStrictOrderedRing K]

theorem upstream_cases (g0 g1 : Bool) (flux : K) : upstream g0 g1 flux = 0 ∨ upstream g0 g1 flux = 1 := by
  unfold upstream; split_ifs
  · right; rfl
  · left; rfl

/-- What goes to the other side, in moles. -/
theorem depart_spec {th : Thermo K} {t : K} {c q : Poly K} {s : Separator K} (hw : GoodWeights c)
    (hq : SameFluids c q) (hmole : ∑ i ∈ range q.n, (q.parts i).moleFraction = 1)
    (ht : 0 < s.types) (hex : dblEps < exitFlux s) (hidx : ∀ k, k < s.types → s.index k < c.n)
    (hleft : ∀ i, i < c.n → 0 ≤ leftMoles q s i) :
    ∃ r, depart th t q s = .ok r ∧ SameFluids c r ∧ Mixed r ∧ r.temperature = t ∧
      ∑ i ∈ range r.n, (r.parts i).massFraction = 1 ∧
      ∀ i, i < c.n → exitFlux s * r.mweight * (r.parts i).massFraction / r.mw i = leftMoles q s i := by
  have he0 : 0 < exitFlux s := dblEps_pos.trans hex
  have hqn := hq.1
  have hgw := hq.weights hw
  have hsum : ∑ i ∈ range q.n, leftMoles q s i / exitFlux s = 1 := by
    rw [← Finset.sum_div]
    have : ∑ i ∈ range q.n, leftMoles q s i = exitFlux s := by
      rw [exitFlux_eq]
      simp only [leftMoles_eq]
      rw [Finset.sum_sub_distrib, ← Finset.mul_sum, hmole, mul_one, sum_held s s.thru (n := q.n)
        (fun k hk => by rw [← hqn]; exact hidx k hk)]
    rw [this, div_self he0.ne']
  have hclose : |∑ i ∈ range q.n, leftMoles q s i / exitFlux s - 1| ≤ fltEps := by
    rw [hsum, sub_self, abs_zero]; exact fltEps_pos.le
  have hn := normalise_of_close hclose
  have hnn : ∀ i, i < q.n → 0 ≤ leftMoles q s i / exitFlux s := by
    intro i hi
    exact div_nonneg (hleft i (by rw [hqn]; exact hi)) he0.le
  obtain ⟨q', hq'⟩ : ∃ q', setMoleAndMoleFractions (exitFlux s) (fun i => leftMoles q s i / exitFlux s) q = .ok q' := by
    unfold setMoleAndMoleFractions
    rw [hn]
    exact ⟨_, rfl⟩
  obtain ⟨h1, -, -, -, -, h6, h7, g, hg, h8⟩ := setMoleFractions_spec hgw hnn hq'
  rw [hn] at hg
  obtain rfl := Option.some.inj hg
  refine ⟨setTemperature th t q', ?_, ?_, ?_, rfl, ?_, ?_⟩
  · unfold depart
    rw [if_pos ⟨ht, hex⟩, hq']
  · exact (hq.trans h6).trans (sameMix_setTemperature th t q').fluids
  · exact (sameMix_setTemperature th t q').mixed h1
  · rw [(sameMix_setTemperature th t q').n, Finset.sum_congr rfl
      (fun i hi => ((sameMix_setTemperature th t q').parts i (mem_range.1 hi)).1)]
    exact h7
  · intro i hi
    have hi1 : i < q.n := by rw [← hqn]; exact hi
    have hi2 : i < q'.n := by rw [← h6.1]; exact hi1
    have hp := (sameMix_setTemperature th t q').parts i hi2
    rw [hp.1, (sameMix_setTemperature th t q').mweight, (sameMix_setTemperature th t q').mw]
    have hw' : q'.mw i ≠ 0 := by rw [← (h6.2 i hi1).2]; exact (hgw.pos hi1).ne'
    have := h1.weight.2 i hi2
    rw [h8 i hi1] at this
    rw [div_eq_iff hw', mul_assoc, mul_comm q'.mweight, ← this]
    field_simp

/-- The transport of a pass. -/
theorem transport_spec {th : Thermo K} {up : Nat} {out c : Poly K} {s : Separator K} (hup : up = 0 ∨ up = 1)
    (hw : GoodWeights c) (ho : Upstream c out) (hidx : ∀ k, k < s.types → s.index k < c.n)
    (hint : SameFluids c s.internal) (hports : s.ports = s.types + 2) (htypes : 0 < s.types)
    (hfl : s.flux = 0 ∨ (dblEps < |s.flux| ∧ dblEps < exitFlux s))
    (hleft : ∀ i, i < c.n → 0 ≤ leftMoles out s i) :
    ∃ calls t, transportSep th up out s = .done calls t ∧
      t.ports = s.ports ∧ t.types = s.types ∧ t.index = s.index ∧ t.port = s.port ∧ t.fraction = s.fraction ∧
      t.thru = s.thru ∧ t.exit = s.exit ∧ t.source = s.source ∧ t.flux = s.flux ∧
      SameFluids c t.internal ∧
      (∀ k, k < s.types → t.fluid k = setTemperature th out.temperature (s.fluid k)) ∧
      (∀ p i, 2 ≤ p → givenMoles calls p i = givenMoles (exitCalls th out.temperature s) p i) ∧
      (∀ i, i < c.n → givenMoles calls up i = 0 ∧
        givenMoles calls (1 - up) i = (if s.flux = 0 then 0 else leftMoles out s i) ∧
        takenMoles out calls up i = |s.flux| * (out.parts i).moleFraction ∧
        ∀ p, p ≠ up → takenMoles out calls p i = 0) := by
  have hlt : ¬ s.types < s.ports - 2 := by omega
  have hex0 : ∀ p i, p < 2 → givenMoles (exitCalls th out.temperature s) p i = 0 := by
    intro p i hp
    rw [exitCalls_given, if_neg (by omega)]
  have hfluid : ∀ k, k < s.types →
      (if k < s.ports - 2 then setTemperature th out.temperature (s.fluid k) else s.fluid k) =
        setTemperature th out.temperature (s.fluid k) := by
    intro k hk
    rw [if_pos (by omega)]
  rcases hfl with h0 | ⟨h1, h2⟩
  · unfold transportSep
    rw [if_neg hlt]
    simp only []
    rw [if_neg (by rw [h0, abs_zero]; exact not_lt.2 dblEps_pos.le)]
    refine ⟨_, _, rfl, rfl, rfl, rfl, rfl, rfl, rfl, rfl, rfl, rfl, hint, hfluid, fun p i _ => rfl, fun i hi => ?_⟩
    refine ⟨hex0 _ _ (by omega), ?_, ?_, ?_⟩
    · rw [if_pos h0]; exact hex0 _ _ (by omega)
    · rw [exitCalls_taken, h0, abs_zero, zero_mul]
    · intro p _; exact exitCalls_taken _ _ _
  · have hne : s.flux ≠ 0 := by
      intro c; rw [c, abs_zero] at h1; exact absurd h1 (not_lt.2 dblEps_pos.le)
    obtain ⟨q, hq, hss, -, -⟩ := setState_spec (ho.fluids.symm.trans hint)
    have hcq : SameFluids c q := ho.fluids.trans hss.fluids
    have hlm : ∀ i, i < c.n → leftMoles q s i = leftMoles out s i := by
      intro i hi
      rw [leftMoles_eq, leftMoles_eq, (hss.parts i (by rw [← ho.fluids.1]; exact hi)).2.1]
    have hmole : ∑ i ∈ range q.n, (q.parts i).moleFraction = 1 := by
      rw [← hss.fluids.1, Finset.sum_congr rfl (fun i hi => (hss.parts i (mem_range.1 hi)).2.1)]
      exact ho.moles
    obtain ⟨r, hr, hcr, hmr, -, -, hgive⟩ := depart_spec (th := th) (t := out.temperature) hw hcq
      hmole htypes h2 hidx (fun i hi => by rw [hlm i hi]; exact hleft i hi)
    unfold transportSep
    rw [if_neg hlt]
    simp only []
    rw [if_pos h1, hq]
    simp only [hr]
    refine ⟨_, _, rfl, rfl, rfl, rfl, rfl, rfl, rfl, rfl, rfl, rfl, hcr, hfluid, fun p i hp => ?_, fun i hi => ?_⟩
    · rw [given_append]
      have : givenMoles [(up, Collect.outflux |s.flux * out.mweight|),
          (1 - up, Collect.inflow r (exitFlux s * r.mweight))] p i = 0 := by
        simp only [givenMoles, List.map_cons, List.map_nil, List.sum_cons, List.sum_nil]
        rw [if_neg (by omega), if_neg (by omega), add_zero, add_zero]
      rw [this, add_zero]
    · have hio : i < out.n := by rw [← ho.fluids.1]; exact hi
      have hud : 1 - up ≠ up := by omega
      refine ⟨?_, ?_, ?_, ?_⟩
      · rw [given_append, hex0 _ _ (by omega), zero_add]
        simp only [givenMoles, List.map_cons, List.map_nil, List.sum_cons, List.sum_nil]
        rw [if_neg hud]; simp
      · rw [if_neg hne, given_append, hex0 _ _ (by omega), zero_add]
        simp only [givenMoles, List.map_cons, List.map_nil, List.sum_cons, List.sum_nil]
        rw [if_neg (fun c => hud c.symm), if_pos trivial, add_zero, zero_add, hgive i hi, hlm i hi]
      · rw [taken_append, exitCalls_taken, zero_add]
        simp only [takenMoles, List.map_cons, List.map_nil, List.sum_cons, List.sum_nil]
        rw [if_pos trivial, if_neg hud, add_zero, add_zero, abs_mul, abs_of_pos ho.mixed.weight.1]
        have hwi : out.mw i ≠ 0 := (ho.weights.pos hio).ne'
        rw [div_eq_iff hwi, mul_assoc, mul_assoc, ho.mixed.weight.2 i hio]
        ring
      · intro p hp
        rw [taken_append, exitCalls_taken, zero_add]
        simp only [takenMoles, List.map_cons, List.map_nil, List.sum_cons, List.sum_nil]
        rw [if_neg (fun c => hp c.symm)]
        simp

/-- The sources after `step`, for any assignment of ports. -/
theorem step_source (p0 p1 : K) (s : Separator K) (hp : ∀ k, k < s.types → 2 ≤ s.port k) :
    (stepSep p0 p1 s).source 0 = (if p1 ≤ p0 then 0 else -∑ k ∈ range s.types, s.thru k) ∧
    (stepSep p0 p1 s).source 1 = (if p1 ≤ p0 then -∑ k ∈ range s.types, s.thru k else 0) ∧
    (∀ q, 2 ≤ q → (∀ k, k < s.types → s.port k ≠ q) → (stepSep p0 p1 s).source q = s.source q) ∧
    (∀ k, k < s.types → (∀ j, k < j → j < s.types → s.port j ≠ s.port k) →
      (stepSep p0 p1 s).source (s.port k) = s.thru k) := by
  have key : ∀ n, n ≤ s.types → ∀ t, t = loop (fun i (t : Separator K) =>
      let v := if p1 ≤ p0 then Function.update t.source 1 (t.source 1 - t.thru i)
        else Function.update t.source 0 (t.source 0 - t.thru i)
      let e := Function.update t.exit i (t.thru i)
      { t with
        exit := e
        source := Function.update v (t.port i) (e i) }) n
      { s with source := Function.update (Function.update s.source 0 0) 1 0 } →
      t.thru = s.thru ∧ t.port = s.port ∧
      t.source 0 = (if p1 ≤ p0 then 0 else -∑ k ∈ range n, s.thru k) ∧
      t.source 1 = (if p1 ≤ p0 then -∑ k ∈ range n, s.thru k else 0) ∧
      (∀ q, 2 ≤ q → (∀ k, k < n → s.port k ≠ q) → t.source q = s.source q) ∧
      (∀ k, k < n → (∀ j, k < j → j < n → s.port j ≠ s.port k) → t.source (s.port k) = s.thru k) := by
    intro n
    induction n with
    | zero =>
      rintro - t rfl
      refine ⟨rfl, rfl, ?_, ?_, ?_, ?_⟩
      · simp
      · simp
      · intro q hq _
        show Function.update (Function.update s.source 0 0) 1 0 q = _
        rw [Function.update_of_ne (by omega), Function.update_of_ne (by omega)]
      · intro k hk; omega
    | succ n ih =>
      rintro hn t rfl
      obtain ⟨t', ht'⟩ : ∃ t', t' = loop (fun i (t : Separator K) =>
        let v := if p1 ≤ p0 then Function.update t.source 1 (t.source 1 - t.thru i)
          else Function.update t.source 0 (t.source 0 - t.thru i)
        let e := Function.update t.exit i (t.thru i)
        { t with
          exit := e
          source := Function.update v (t.port i) (e i) }) n
        { s with source := Function.update (Function.update s.source 0 0) 1 0 } := ⟨_, rfl⟩
      obtain ⟨h1, h2, h3, h4, h5, h6⟩ := ih (by omega) t' ht'
      rw [loop_succ, ← ht']
      simp only []
      have hpn := hp n (by omega)
      rw [h2, h1]
      refine ⟨rfl, rfl, ?_, ?_, ?_, ?_⟩
      · rw [Function.update_of_ne (by omega)]
        by_cases hc : p1 ≤ p0
        · rw [if_pos hc, if_pos hc, Function.update_of_ne (by omega), h3, if_pos hc]
        · rw [if_neg hc, if_neg hc, Function.update_self, h3, if_neg hc, Finset.sum_range_succ]; ring
      · rw [Function.update_of_ne (by omega)]
        by_cases hc : p1 ≤ p0
        · rw [if_pos hc, if_pos hc, Function.update_self, h4, if_pos hc, Finset.sum_range_succ]; ring
        · rw [if_neg hc, if_neg hc, Function.update_of_ne (by omega), h4, if_neg hc]
      · intro q hq hk
        rw [Function.update_of_ne (fun c => hk n (by omega) c.symm)]
        rw [← h5 q hq (fun k hk' => hk k (by omega))]
        by_cases hc : p1 ≤ p0
        · rw [if_pos hc, Function.update_of_ne (by omega)]
        · rw [if_neg hc, Function.update_of_ne (by omega)]
      · intro k hk hj
        by_cases e : k = n
        · rw [e, Function.update_self, Function.update_self]
        · have hk2 := hp k (by omega)
          rw [Function.update_of_ne (fun c => hj n (by omega) (by omega) c.symm)]
          rw [← h6 k (by omega) (fun j a b => hj j a (by omega))]
          by_cases hc : p1 ≤ p0
          · rw [if_pos hc, Function.update_of_ne (by omega)]
          · rw [if_neg hc, Function.update_of_ne (by omega)]
  obtain ⟨-, -, h3, h4, h5, h6⟩ := key s.types le_rfl _ rfl
  exact ⟨h3, h4, h5, h6⟩

end Gunns.Fluid
