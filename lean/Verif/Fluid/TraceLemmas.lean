import Verif.Fluid.TraceSpec
import Verif.Fluid.NodeStep

/-!
# Facts about trace compounds
-/

set_option linter.unusedSectionVars false

namespace Gunns.Fluid

open Finset Gunns.Props

variable {K : Type _} [Field K] [LinearOrder K] [IsStrictOrderedRing K]

/-! ## One mixture -/

theorem tc_update_spec {g : TcConfig K} {moles : K} {t : Tc K} {j : Nat} (hm : 0 < moles) (hw : 0 < g.mw j)
    (h : Enough g j moles (t.mass j)) :
    (Tc.updateMoleFractions g moles t).mass j = t.mass j ∧
    (Tc.updateMoleFractions g moles t).frac j * moles * g.mw j = t.mass j ∧
    ((Tc.updateMoleFractions g moles t).frac j = 0 ∨ dblEps ≤ (Tc.updateMoleFractions g moles t).frac j) := by
  unfold Tc.updateMoleFractions
  simp only [if_pos hm]
  rcases h with h | h
  · rw [h]
    have : (0 : K) / moles / g.mw j < dblEps := by rw [zero_div, zero_div]; exact dblEps_pos
    rw [if_pos this, if_pos this]
    exact ⟨rfl, by ring, Or.inl rfl⟩
  · have : dblEps ≤ t.mass j / moles / g.mw j := by
      rw [le_div_iff₀ hw, le_div_iff₀ hm]
      calc dblEps * g.mw j * moles = dblEps * moles * g.mw j := by ring
        _ ≤ _ := h
    rw [if_neg (not_lt.2 this), if_neg (not_lt.2 this)]
    exact ⟨rfl, by field_simp, Or.inr this⟩

theorem Enough.nonneg {g : TcConfig K} {j : Nat} {moles m : K} (h : Enough g j moles m) (hm : 0 ≤ moles) (hw : 0 < g.mw j) :
    0 ≤ m := by
  rcases h with h | h
  · exact h.ge
  · exact (mul_nonneg (mul_nonneg dblEps_pos.le hm) hw.le).trans h

theorem tidy_update {g : TcConfig K} {moles : K} {t : Tc K} (hm : 0 < moles) (hw : ∀ j, j < g.n → 0 < g.mw j)
    (h : ∀ j, j < g.n → Enough g j moles (t.mass j)) :
    Tidy g moles (Tc.updateMoleFractions g moles t) ∧
    ∀ j, j < g.n → (Tc.updateMoleFractions g moles t).mass j = t.mass j := by
  refine ⟨fun j hj => ?_, fun j hj => (tc_update_spec hm (hw j hj) (h j hj)).1⟩
  obtain ⟨a, b, c⟩ := tc_update_spec hm (hw j hj) (h j hj)
  exact ⟨by rw [a]; exact (h j hj).nonneg hm.le (hw j hj), by rw [a, b], c⟩

theorem Tidy.enough {g : TcConfig K} {moles : K} {t : Tc K} (hm : 0 ≤ moles) (hw : ∀ j, j < g.n → 0 < g.mw j)
    (h : Tidy g moles t) {j : Nat} (hj : j < g.n) : Enough g j moles (t.mass j) := by
  obtain ⟨-, b, c⟩ := h j hj
  rcases c with c | c
  · left; rw [b, c]; ring
  · right; rw [b]
    exact mul_le_mul_of_nonneg_right (mul_le_mul_of_nonneg_right c hm) (hw j hj).le

theorem moleFlow_eq {temp : (Nat → K) → K → K} {src p q : Poly K} {flow : K} (h : addState temp src flow p = .ok q)
    (hq : q.flowRate ≠ 0) : moleFlow q = q.flowRate / q.mweight := by
  obtain ⟨-, -, -, -, hqn, -, hmw, -, -, -, hweight, -⟩ := addState_ok h
  have hne : innerLimit moleLimit (∑ i ∈ range p.n, (q.parts i).flowRate / p.mw i) ≠ 0 :=
    innerLimit_ne_zero (mul_pos dblEps_pos dblEps_pos) _
  have e : moleFlow q = innerLimit moleLimit (∑ i ∈ range p.n, (q.parts i).flowRate / p.mw i) := by
    unfold moleFlow
    rw [total_eq_sum, hqn, hmw]
  rw [e, hweight]
  field_simp

/-- The moles of a proper mixture are those of its constituents. -/
theorem mole_eq {p : Poly K} (hw : GoodWeights p) (hm : Mixed p) (hc : ContentShared p)
    (h1 : ∑ i ∈ range p.n, (p.parts i).moleFraction = 1) : p.mole = ∑ i ∈ range p.n, (p.parts i).mass / p.mw i := by
  have e : ∀ i, i < p.n → (p.parts i).mass / p.mw i = p.mole * (p.parts i).moleFraction := by
    intro i hi
    rw [div_eq_iff (hw.pos hi).ne', hc.mass i hi, ← hc.moles]
    have := hm.weight.2 i hi
    linear_combination (- p.mole) * this
  rw [Finset.sum_congr rfl (fun i hi => e i (mem_range.1 hi)), ← Finset.mul_sum, h1, mul_one]

/-! ## Collecting -/

theorem plain_cons (o : TCollect K) (ops : List (TCollect K)) :
    plain (o :: ops) = plain [o] ++ plain ops := by
  unfold plain; rw [← List.filterMap_append]; rfl

theorem tins_cons (o : TCollect K) (ops : List (TCollect K)) : tins (o :: ops) = tins [o] ++ tins ops := by
  unfold tins; rw [← List.filterMap_append]; rfl

theorem run_fluid (th : Thermo K) (g : TcConfig K) (s : TNode K) (o : TCollect K) :
    (o.run th g s).fluid = (plain [o]).foldl (Collect.run th) s.fluid := by
  cases o with
  | trace i rate =>
    show ((s.collectTc g i rate).getD s).fluid = s.fluid
    unfold TNode.collectTc
    by_cases h : 0 ≤ i ∧ i < (g.n : Int)
    · rw [if_pos h]; rfl
    · rw [if_neg h]; rfl
  | _ => rfl

/-- Without the trace compounds the node does what it does without them. -/
theorem collect_fluid (th : Thermo K) (g : TcConfig K) (ops : List (TCollect K)) (s : TNode K) :
    (ops.foldl (TCollect.run th g) s).fluid = (plain ops).foldl (Collect.run th) s.fluid := by
  induction ops generalizing s with
  | nil => rfl
  | cons o ops ih =>
    rw [List.foldl_cons, ih, run_fluid, plain_cons o ops, List.foldl_append]

theorem inflows_plain (ops : List (TCollect K)) : inflows (plain ops) = (tins ops).map (fun a => (a.1, a.2.2)) := by
  induction ops with
  | nil => rfl
  | cons o ops ih =>
    rw [plain_cons, tins_cons, List.map_append, ← ih]
    unfold inflows
    rw [List.filterMap_append]
    cases o <;> rfl

/-- What collecting leaves alone, and the rates. -/
theorem collect_rest (th : Thermo K) (g : TcConfig K) (ops : List (TCollect K)) (s : TNode K) :
    let r := ops.foldl (TCollect.run th g) s
    r.content = s.content ∧ r.outflow = s.outflow ∧
    ∀ j, j < g.n → r.rates j = s.rates j +
      (ops.map (fun o => match o with | .trace i rate => if i = (j : Int) then rate else 0 | _ => 0)).sum := by
  induction ops generalizing s with
  | nil => exact ⟨rfl, rfl, fun j _ => by simp⟩
  | cons o ops ih =>
    simp only [List.foldl_cons]
    obtain ⟨h1, h2, h3⟩ := ih (o.run th g s)
    cases o with
    | trace i rate =>
      have key : (TCollect.run th g s (.trace i rate)).content = s.content ∧
          (TCollect.run th g s (.trace i rate)).outflow = s.outflow ∧
          ∀ j, j < g.n → (TCollect.run th g s (.trace i rate)).rates j = s.rates j + if i = (j : Int) then rate else 0 := by
        show ((s.collectTc g i rate).getD s).content = _ ∧ ((s.collectTc g i rate).getD s).outflow = _ ∧
          ∀ j, j < g.n → ((s.collectTc g i rate).getD s).rates j = _
        unfold TNode.collectTc
        by_cases h : 0 ≤ i ∧ i < (g.n : Int)
        · rw [if_pos h]
          refine ⟨rfl, rfl, fun j hj => ?_⟩
          show (if j = i.toNat then s.rates j + rate else s.rates j) = _
          by_cases hji : i = (j : Int)
          · rw [if_pos hji, if_pos (by omega)]
          · rw [if_neg hji, if_neg (by omega), add_zero]
        · rw [if_neg h]
          refine ⟨rfl, rfl, fun j hj => ?_⟩
          rw [if_neg (by omega), add_zero]; rfl
      obtain ⟨k1, k2, k3⟩ := key
      refine ⟨h1.trans k1, h2.trans k2, fun j hj => ?_⟩
      rw [h3 j hj, k3 j hj, List.map_cons, List.sum_cons]
      ring
    | inflow src tc rate =>
      refine ⟨h1, h2, fun j hj => ?_⟩
      rw [h3 j hj, List.map_cons, List.sum_cons, zero_add]; rfl
    | schedule f =>
      refine ⟨h1, h2, fun j hj => ?_⟩
      rw [h3 j hj, List.map_cons, List.sum_cons, zero_add]; rfl
    | heat f =>
      refine ⟨h1, h2, fun j hj => ?_⟩
      rw [h3 j hj, List.map_cons, List.sum_cons, zero_add]; rfl
    | outflux f =>
      refine ⟨h1, h2, fun j hj => ?_⟩
      rw [h3 j hj, List.map_cons, List.sum_cons, zero_add]; rfl

/-- The trace compounds of the inflow, while flows are collected. -/
theorem collect_trace {th : Thermo K} {g : TcConfig K} {c : Poly K} (hgw : GoodWeights c) (hmw : ∀ j, j < g.n → 0 < g.mw j)
    (ops : List (TCollect K)) {s : TNode K} (A : Nat → K) (hI : Adding s.fluid.inflow) (hs : SameFluids c s.fluid.inflow)
    (hadd : ∀ a ∈ tins ops, Addable c (a.1, a.2.2)) (hA : ∀ j, j < g.n → s.inflow.mass j = A j * g.mw j)
    (hpre : ∀ pre suf, tins ops = pre ++ suf → ∀ j, j < g.n → A j + tcFlow pre j = 0 ∨
      dblEps * (∑ i ∈ range c.n, (s.fluid.inflow.parts i).flowRate / c.mw i + molFlow c pre) ≤ A j + tcFlow pre j) :
    ∀ j, j < g.n →
      (ops.foldl (TCollect.run th g) s).inflow.mass j = (A j + tcFlow (tins ops) j) * g.mw j ∧
      (tins ops = [] → (ops.foldl (TCollect.run th g) s).inflow.frac j = s.inflow.frac j) ∧
      (tins ops ≠ [] → (ops.foldl (TCollect.run th g) s).inflow.frac j *
        (∑ i ∈ range c.n, (s.fluid.inflow.parts i).flowRate / c.mw i + molFlow c (tins ops)) = A j + tcFlow (tins ops) j) := by
  induction ops generalizing s A with
  | nil =>
    intro j hj
    refine ⟨?_, fun _ => rfl, fun h => absurd rfl h⟩
    show s.inflow.mass j = _
    rw [hA j hj]
    show _ = (A j + 0) * _
    rw [add_zero]
  | cons o ops ih =>
    simp only [List.foldl_cons]
    have plainCase : ∀ o : TCollect K, tins [o] = [] → (o.run th g s).fluid.inflow = s.fluid.inflow →
        (o.run th g s).inflow = s.inflow →
        (∀ a ∈ tins (o :: ops), Addable c (a.1, a.2.2)) →
        (∀ pre suf, tins (o :: ops) = pre ++ suf → ∀ j, j < g.n → A j + tcFlow pre j = 0 ∨
          dblEps * (∑ i ∈ range c.n, (s.fluid.inflow.parts i).flowRate / c.mw i + molFlow c pre) ≤ A j + tcFlow pre j) →
        ∀ j, j < g.n →
          (ops.foldl (TCollect.run th g) (o.run th g s)).inflow.mass j = (A j + tcFlow (tins (o :: ops)) j) * g.mw j ∧
          (tins (o :: ops) = [] → (ops.foldl (TCollect.run th g) (o.run th g s)).inflow.frac j = s.inflow.frac j) ∧
          (tins (o :: ops) ≠ [] → (ops.foldl (TCollect.run th g) (o.run th g s)).inflow.frac j *
            (∑ i ∈ range c.n, (s.fluid.inflow.parts i).flowRate / c.mw i + molFlow c (tins (o :: ops))) =
              A j + tcFlow (tins (o :: ops)) j) := by
      intro o h0 h1 h2 ha hp
      have e : tins (o :: ops) = tins ops := by rw [tins_cons, h0]; rfl
      rw [e] at ha hp ⊢
      have := ih (s := o.run th g s) A (by rw [h1]; exact hI) (by rw [h1]; exact hs) ha
        (by rw [h2]; exact hA) (by rw [h1]; exact hp)
      rw [h1, h2] at this
      exact this
    cases o with
    | trace i rate =>
      refine plainCase _ rfl ?_ ?_ hadd hpre
      · rw [run_fluid]; rfl
      · show ((s.collectTc g i rate).getD s).inflow = s.inflow
        unfold TNode.collectTc
        by_cases h : 0 ≤ i ∧ i < (g.n : Int)
        · rw [if_pos h]; rfl
        · rw [if_neg h]; rfl
    | schedule f => exact plainCase _ rfl rfl rfl hadd hpre
    | heat f => exact plainCase _ rfl rfl rfl hadd hpre
    | outflux f => exact plainCase _ rfl rfl rfl hadd hpre
    | inflow src tc rate =>
      clear plainCase
      have e : tins (TCollect.inflow src tc rate :: ops) = (src, tc, rate) :: tins ops := rfl
      rw [e] at hadd hpre ⊢
      have ha := hadd (src, tc, rate) List.mem_cons_self
      have ha' : Addable s.fluid.inflow (src, rate) := ⟨hs.symm.trans ha.same, ha.mixed, ha.shared, ha.flow, ha.parts⟩
      obtain ⟨q, q1, q2, q3, q4, q5, -, q7⟩ := add_step (temp := th.temp) hI ha'
      have hrate : dblEps ≤ rate := ha.flow
      obtain ⟨e1, e2, -⟩ := c31_add_conserves q1 ha.shared (hrate.trans (le_abs_self _)) ha.parts
      simp only at q1 e1 e2
      have hcq : SameFluids c q := hs.trans q5
      have hqpos : 0 < q.flowRate := by rw [e1]; linarith [hI.nonneg, dblEps_pos (K := K)]
      have hmf := moleFlow_eq q1 hqpos.ne'
      have hmpos : 0 < moleFlow q := by rw [hmf]; exact div_pos hqpos q3.weight.1
      have hsum : moleFlow q = ∑ i ∈ range c.n, (s.fluid.inflow.parts i).flowRate / c.mw i + molFlow c [(src, tc, rate)] := by
        rw [hmf, q7, ← hcq.1]
        unfold molFlow
        rw [List.map_cons, List.map_nil, List.sum_cons, List.sum_nil, add_zero, ← Finset.sum_add_distrib]
        refine Finset.sum_congr rfl (fun i hi => ?_)
        have hi' := mem_range.1 hi
        rw [e2 i (by rw [← hs.1]; exact hi'), ← (hcq.2 i hi').2, add_div]
      have hinf : (TCollect.run th g s (.inflow src tc rate)).fluid.inflow = q := by
        show (addState th.temp src rate s.fluid.inflow).state = q
        rw [q1]; rfl
      have hgt : dblEps < src.mweight := mweight_gt (ha.same.weights hgw) ha.mixed
      have hsf : sourceFlow src rate = rate := if_neg (not_lt.2 (hrate.trans (le_abs_self _)))
      have htc : (TCollect.run th g s (.inflow src tc rate)).inflow =
          Tc.flowIn g (moleFlow q) tc (rate / src.mweight) s.inflow := by
        show (match addState th.temp src rate s.fluid.inflow with
          | .ok q => Tc.addState g (moleFlow q) src tc rate s.inflow
          | .thrown _ => s.inflow) = _
        rw [q1]
        show Tc.addState g (moleFlow q) src tc rate s.inflow = _
        unfold Tc.addState
        rw [if_pos hgt, hsf]
      have hnew : ∀ j, j < g.n → s.inflow.mass j + rate / src.mweight * tc.frac j * g.mw j =
          (A j + tcFlow [(src, tc, rate)] j) * g.mw j := by
        intro j hj
        rw [hA j hj]
        unfold tcFlow
        rw [List.map_cons, List.map_nil, List.sum_cons, List.sum_nil, add_zero]
        ring
      have hen : ∀ j, j < g.n → Enough g j (moleFlow q) (s.inflow.mass j + rate / src.mweight * tc.frac j * g.mw j) := by
        intro j hj
        rw [hnew j hj, hsum]
        rcases hpre [(src, tc, rate)] (tins ops) rfl j hj with h | h
        · left; rw [h, zero_mul]
        · right; exact mul_le_mul_of_nonneg_right h (hmw j hj).le
      have hup : ∀ j, j < g.n →
          (TCollect.run th g s (.inflow src tc rate)).inflow.mass j = (A j + tcFlow [(src, tc, rate)] j) * g.mw j ∧
          (TCollect.run th g s (.inflow src tc rate)).inflow.frac j * moleFlow q = A j + tcFlow [(src, tc, rate)] j := by
        intro j hj
        rw [htc]
        unfold Tc.flowIn
        obtain ⟨u1, u2, -⟩ := tc_update_spec (t := { s.inflow with
          mass := fun i => s.inflow.mass i + rate / src.mweight * tc.frac i * g.mw i }) hmpos (hmw j hj) (hen j hj)
        refine ⟨u1.trans (hnew j hj), ?_⟩
        simp only [hnew j hj] at u2
        exact mul_right_cancel₀ (hmw j hj).ne' u2
      have hbase : ∑ i ∈ range c.n, (q.parts i).flowRate / c.mw i = moleFlow q := by
        rw [hmf, q7, ← hcq.1]
        exact Finset.sum_congr rfl (fun i hi => by rw [← (hcq.2 i (mem_range.1 hi)).2])
      have htcf : ∀ l j, tcFlow ((src, tc, rate) :: l) j = tcFlow [(src, tc, rate)] j + tcFlow l j := by
        intro l j; unfold tcFlow; simp
      have hmf' : ∀ l, molFlow c ((src, tc, rate) :: l) = molFlow c [(src, tc, rate)] + molFlow c l := by
        intro l; unfold molFlow; simp
      intro j hj
      obtain ⟨r1, r2, r3⟩ := ih (s := TCollect.run th g s (.inflow src tc rate)) (fun j => A j + tcFlow [(src, tc, rate)] j)
        (by rw [hinf]; exact q2) (by rw [hinf]; exact hcq) (fun a ha => hadd a (List.mem_cons_of_mem _ ha))
        (fun j hj => (hup j hj).1)
        (by
          intro pre suf hps j hj
          rw [hinf, hbase, hsum]
          have := hpre ((src, tc, rate) :: pre) suf (by rw [hps]; rfl) j hj
          rw [htcf, hmf', ← add_assoc, ← add_assoc] at this
          exact this) j hj
      refine ⟨?_, fun h => (List.cons_ne_nil _ _ h).elim, fun _ => ?_⟩
      · rw [r1, htcf (tins ops) j]; ring
      · rw [htcf (tins ops) j, hmf' (tins ops)]
        by_cases h0 : tins ops = []
        · rw [r2 h0, h0]
          have z1 : tcFlow ([] : List (Poly K × Tc K × K)) j = 0 := rfl
          have z2 : molFlow c ([] : List (Poly K × Tc K × K)) = 0 := rfl
          rw [z1, z2, add_zero, add_zero, ← hsum]
          exact (hup j hj).2
        · have := r3 h0
          rw [hinf, hbase, hsum] at this
          rw [← add_assoc, ← add_assoc]
          exact this

end Gunns.Fluid
