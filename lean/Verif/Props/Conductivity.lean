import Verif.Base.Loop
import Verif.Fluid.Conductivity
import Mathlib.Tactic.Linarith
import Mathlib.Tactic.FieldSimp
import Mathlib.Tactic.Ring
import Mathlib.Tactic.NormNum
import Mathlib.Tactic.Positivity

/-!
# C64: fluid conductors and valves pass the flow of their conductivity
-/

namespace Gunns.Props

open Gunns.FluidValve
open Gunns.Interp (limitRange)

/-! ## Statements -/

/-- The mass flow of the momentum equation, core/GunnsFluidUtils.cpp:85-93: conductivity times (density times pressure
drop in Pa) to a power; `dp` is in kPa. -/
noncomputable def c64law (g rho dp x : ℝ) : ℝ := g * (rho * (1000 * dp)) ^ x

/-- The mean density of two fluids. -/
noncomputable def c64rho (f0 f1 : Fl) : ℝ := (f0.rho + f1.rho) / 2

/-- The mean weight of two fluids. -/
noncomputable def c64weight (f0 f1 : Fl) : ℝ := (f0.mw + f1.mw) / 2

/-- Two fluids that are not nothing, with a pressure drop from the first to the second that is at least the minimum for
linearization and not within rounding. -/
structure c64Flows (minLin : ℝ) (f0 f1 : Fl) : Prop where
  m0 : dblEps < f0.mw
  m1 : dblEps < f1.mw
  rho : dblEps < c64rho f0 f1
  lin : dblEps < minLin
  drop : minLin ≤ f0.p - f1.p
  big : f0.p * (100 * dblEps) ≤ f0.p - f1.p

/-! ## Lemmas -/

private theorem epsPos : (0 : ℝ) < dblEps := by unfold dblEps; positivity

private theorem limitRange_id {x : ℝ} (h0 : 1 / 2 ≤ x) (h1 : x ≤ 1) : limitRange (1 / 2) x 1 = x := by
  unfold limitRange
  rw [min_eq_left h1, max_eq_left h0]

private theorem power_eq {x z : ℝ} (h0 : 1 / 2 ≤ x) (h1 : x ≤ 1) : power x z = z ^ x := by
  unfold power
  simp only [limitRange_id h0 h1]
  by_cases a : 1 / 2 = x
  · rw [if_pos a, ← a, Real.sqrt_eq_rpow]
  · rw [if_neg a]
    by_cases b : 1 = x
    · rw [if_pos b, ← b, Real.rpow_one]
    · rw [if_neg b]

private theorem clamp_mem (x : ℝ) : 1 / 2 ≤ limitRange (1 / 2) x 1 ∧ limitRange (1 / 2) x 1 ≤ 1 := by
  unfold limitRange
  exact ⟨le_max_right _ _, max_le (min_le_right _ _) (by norm_num)⟩

private theorem power_clamp (x z : ℝ) : power x z = z ^ limitRange (1 / 2) x 1 := by
  obtain ⟨a, b⟩ := clamp_mem x
  rw [← power_eq a b]
  unfold power
  rw [limitRange_id a b]

private theorem power_pos {x z : ℝ} (hz : 0 < z) : 0 < power x z := by
  rw [power_clamp]
  exact Real.rpow_pos_of_pos hz _

private theorem power_nonneg {x z : ℝ} (hz : 0 ≤ z) : 0 ≤ power x z := by
  rw [power_clamp]
  exact Real.rpow_nonneg hz _

private theorem weight_eq {f0 f1 : Fl} (h0 : dblEps ≤ f0.mw) (h1 : dblEps ≤ f1.mw) :
    useMW f0 f1 = c64weight f0 f1 := by
  unfold useMW c64weight
  rw [if_neg (not_lt.2 h0), if_neg (not_lt.2 h1)]
  ring

private theorem weight_symm (f0 f1 : Fl) : useMW f0 f1 = useMW f1 f0 ∨ (f0.mw < dblEps ∧ f1.mw < dblEps) := by
  unfold useMW
  by_cases a : f0.mw < dblEps
  · by_cases b : f1.mw < dblEps
    · exact .inr ⟨a, b⟩
    · left
      rw [if_pos a, if_neg b, if_pos a]
  · left
    by_cases b : f1.mw < dblEps
    · rw [if_neg a, if_pos b, if_pos b]
    · rw [if_neg a, if_neg b, if_neg b, if_neg a, add_comm]

/-! ## Admittance and conductivity -/

/-- The order of the fluids does not matter. -/
theorem c64_symmetric (g minLin : ℝ) (f0 f1 : Fl) (x : ℝ) :
    computeAdmittance g minLin f0 f1 x = computeAdmittance g minLin f1 f0 x ∧
    predictConductivity g minLin f0 f1 x = predictConductivity g minLin f1 f0 x := by
  constructor
  · unfold computeAdmittance
    rcases weight_symm f0 f1 with h | ⟨a, b⟩
    · simp only [h, abs_sub_comm f0.p f1.p, add_comm f0.rho f1.rho]
    · have e1 : ¬(useMW f0 f1 > dblEps) := by
        unfold useMW
        rw [if_pos a]
        exact not_lt.2 b.le
      have e2 : ¬(useMW f1 f0 > dblEps) := by
        unfold useMW
        rw [if_pos b]
        exact not_lt.2 a.le
      simp only [e1, e2, and_false, if_false]
  · unfold predictConductivity
    simp only [abs_sub_comm f0.p f1.p, add_comm f0.rho f1.rho]

/-- The admittance gives the flow of the momentum equation: times the pressure drop (at least the minimum) and the mean
weight, it is the mass flow. Next to the ground node the weight is that of the other fluid. -/
theorem c64_law (g minLin : ℝ) (f0 f1 : Fl) (x : ℝ) (hx : 1 / 2 ≤ x) (hx1 : x ≤ 1) (hl : dblEps < minLin)
    (h0 : dblEps < f0.mw) :
    (dblEps < f1.mw → computeAdmittance g minLin f0 f1 x * max minLin |f0.p - f1.p| * c64weight f0 f1 =
      c64law g (c64rho f0 f1) (max minLin |f0.p - f1.p|) x) ∧
    (f1.mw = 0 → computeAdmittance g minLin f0 f1 x * max minLin |f0.p - f1.p| * f0.mw =
      c64law g (c64rho f0 f1) (max minLin |f0.p - f1.p|) x) := by
  have e := epsPos
  obtain ⟨D, hD⟩ : ∃ D, D = max minLin |f0.p - f1.p| := ⟨_, rfl⟩
  have hDe : dblEps < D := lt_of_lt_of_le hl (hD ▸ le_max_left _ _)
  have hD0 : D ≠ 0 := by linarith
  have key : ∀ w, useMW f0 f1 = w → dblEps < w → computeAdmittance g minLin f0 f1 x * D * w =
      c64law g (c64rho f0 f1) D x := by
    intro w hw hwe
    have hw0 : w ≠ 0 := by linarith
    unfold computeAdmittance c64law c64rho
    simp only [← hD, hw]
    rw [if_pos ⟨hDe, hwe⟩, power_eq hx hx1]
    unfold paPerKpa
    rw [show 1 / 2 * (f0.rho + f1.rho) * (1000 * D) = (f0.rho + f1.rho) / 2 * (1000 * D) by ring]
    field_simp
  rw [← hD]
  constructor
  · intro h1
    refine key _ (weight_eq h0.le h1.le) ?_
    unfold c64weight
    linarith
  · intro h1
    refine key _ ?_ h0
    unfold useMW
    rw [if_neg (by linarith), if_pos (by linarith)]

/-- The predicted conductivity is the inverse of that: it gives the desired flow. -/
theorem c64_round_trip (mdot minLin : ℝ) (f0 f1 : Fl) (x : ℝ) (hp : dblEps < |f0.p - f1.p|)
    (hr : dblEps < c64rho f0 f1) (h0 : dblEps < f0.mw) (h1 : dblEps < f1.mw) :
    computeAdmittance (predictConductivity mdot minLin f0 f1 x) minLin f0 f1 x * max minLin |f0.p - f1.p| *
      c64weight f0 f1 = |mdot| := by
  have e := epsPos
  obtain ⟨D, hD⟩ : ∃ D, D = max minLin |f0.p - f1.p| := ⟨_, rfl⟩
  have hDe : dblEps < D := lt_of_lt_of_le hp (hD ▸ le_max_right _ _)
  have hD2 : (if |f0.p - f1.p| < minLin then minLin else |f0.p - f1.p|) = D := by
    rw [hD]
    by_cases a : |f0.p - f1.p| < minLin
    · rw [if_pos a, max_eq_left a.le]
    · rw [if_neg a, max_eq_right (not_lt.1 a)]
  have hr' : (1 : ℝ) / 2 * (f0.rho + f1.rho) > dblEps := by unfold c64rho at hr; linarith
  unfold computeAdmittance predictConductivity
  simp only [← hD, hD2, weight_eq h0.le h1.le]
  have hw : dblEps < c64weight f0 f1 := by unfold c64weight; linarith
  rw [if_pos ⟨hDe, hw⟩, if_pos hp, if_pos hr']
  obtain ⟨z, hz⟩ : ∃ z, z = 1 / 2 * (f0.rho + f1.rho) * (paPerKpa * D) := ⟨_, rfl⟩
  have hz' : paPerKpa * D * (1 / 2 * (f0.rho + f1.rho)) = z := by rw [hz]; ring
  have hzp : 0 < z := by
    rw [hz]
    unfold paPerKpa
    exact mul_pos (by linarith) (by linarith)
  rw [hz', ← hz]
  have := (power_pos (x := x) hzp).ne'
  have : D ≠ 0 := by linarith
  have : c64weight f0 f1 ≠ 0 := by linarith
  field_simp

/-- More conductivity gives more admittance, none gives none. -/
theorem c64_monotone (minLin : ℝ) (f0 f1 : Fl) (x : ℝ) (h0 : 0 ≤ f0.rho) (h1 : 0 ≤ f1.rho) :
    (∀ g h, g ≤ h → computeAdmittance g minLin f0 f1 x ≤ computeAdmittance h minLin f0 f1 x) ∧
    computeAdmittance 0 minLin f0 f1 x = 0 ∧
    ∀ g c, computeAdmittance (g * c) minLin f0 f1 x = computeAdmittance g minLin f0 f1 x * c := by
  have e := epsPos
  refine ⟨?_, ?_, ?_⟩
  · intro g h hgh
    unfold computeAdmittance
    by_cases a : max minLin |f0.p - f1.p| > dblEps ∧ useMW f0 f1 > dblEps
    · simp only [if_pos a]
      have hp : 0 ≤ power x (1 / 2 * (f0.rho + f1.rho) * (paPerKpa * max minLin |f0.p - f1.p|)) := by
        apply power_nonneg
        unfold paPerKpa
        have := a.1
        exact mul_nonneg (by linarith) (by linarith)
      have hd := a.1
      have hw := a.2
      exact div_le_div_of_nonneg_right (div_le_div_of_nonneg_right (mul_le_mul_of_nonneg_right hgh hp) (by linarith))
        (by linarith)
    · simp only [if_neg a]
      exact le_refl _
  · unfold computeAdmittance
    simp
  · intro g c
    unfold computeAdmittance
    by_cases a : max minLin |f0.p - f1.p| > dblEps ∧ useMW f0 f1 > dblEps
    · simp only [if_pos a]
      ring
    · simp only [if_neg a]
      ring

/-! ## Steps -/

private theorem build_keeps (d : Duct) :
    ∃ m u, d.build = { d with
      matrix := m
      update := u } := by
  unfold Duct.build
  by_cases a : |d.matrix 0 - d.sysCond| > 0
  · rw [if_pos a]
    exact ⟨_, _, rfl⟩
  · rw [if_neg a]
    exact ⟨d.matrix, d.update, rfl⟩

private theorem build_zero (d : Duct) : d.build.matrix 0 = d.sysCond := by
  unfold Duct.build
  by_cases a : |d.matrix 0 - d.sysCond| > 0
  · rw [if_pos a]
    rfl
  · rw [if_neg a]
    have : |d.matrix 0 - d.sysCond| = 0 := le_antisymm (not_lt.1 a) (abs_nonneg _)
    exact sub_eq_zero.1 (abs_eq_zero.1 this)

/-- The conductance of a conductor is in its matrix as for any conductor: rows and columns add up to zero. -/
def c64Matrix (d : Duct) : Prop := d.matrix 1 = -d.matrix 0 ∧ d.matrix 2 = -d.matrix 0 ∧ d.matrix 3 = d.matrix 0

private theorem finish_matrix (d : Duct) (f0 f1 : Fl) (h : c64Matrix d) :
    c64Matrix (d.finish f0 f1) ∧ (d.finish f0 f1).matrix 0 = (d.finish f0 f1).sysCond ∧
      0 ≤ (d.finish f0 f1).sysCond ∧ (d.finish f0 f1).sysCond ≤ conductanceLimit ∧
      ((d.finish f0 f1).matrix 0 ≠ d.matrix 0 → (d.finish f0 f1).update = true) := by
  obtain ⟨q, hq⟩ : ∃ q, q = (if (d.tuning f0 f1).block then
      { d.tuning f0 f1 with
        effCond := (d.tuning f0 f1).effCond * (1 - (d.tuning f0 f1).blockage) }
    else d.tuning f0 f1) := ⟨_, rfl⟩
  have ht : (d.tuning f0 f1).matrix = d.matrix := by
    unfold Duct.tuning
    cases d.tune with
    | trueVol =>
      show (if d.tuneVol ≥ 0 then d.tuneFlow f0 f1 (d.tuneVol * f0.rho)
        else d.tuneFlow f0 f1 (d.tuneVol * f1.rho)).matrix = _
      split_ifs <;> rfl
    | _ => rfl
  have hm : q.matrix = d.matrix := by
    rw [hq]
    by_cases a : (d.tuning f0 f1).block
    · rw [if_pos a]
      exact ht
    · rw [if_neg a]
      exact ht
  obtain ⟨r, hr⟩ : ∃ r : Duct, r = { q with
    sysCond := limitRange 0 (computeAdmittance q.effCond q.minLin f0 f1 q.exponent) conductanceLimit } := ⟨_, rfl⟩
  have hrm : r.matrix = d.matrix := by rw [hr]; exact hm
  have e0 : (0 : ℝ) ≤ conductanceLimit := by unfold conductanceLimit; positivity
  have hs0 : 0 ≤ r.sysCond := by rw [hr]; exact le_max_right _ _
  have hs1 : r.sysCond ≤ conductanceLimit := by rw [hr]; exact max_le (min_le_right _ _) e0
  have hfin : d.finish f0 f1 = r.build := by
    rw [hr, hq]
    rfl
  rw [hfin]
  have hb := build_zero r
  obtain ⟨m, u, hbk⟩ := build_keeps r
  have hbs : r.build.sysCond = r.sysCond := by rw [hbk]
  refine ⟨?_, hb.trans hbs.symm, hbs ▸ hs0, hbs ▸ hs1, ?_⟩
  · unfold Duct.build
    by_cases a : |r.matrix 0 - r.sysCond| > 0
    · rw [if_pos a]
      exact ⟨rfl, rfl, rfl⟩
    · rw [if_neg a]
      unfold c64Matrix
      rw [hrm]
      exact h
  · intro hne
    rw [hb] at hne
    unfold Duct.build
    rw [if_pos]
    rw [hrm]
    exact abs_pos.2 (sub_ne_zero.2 hne.symm)

private theorem updateValve_matrix (d : Duct) (f0 f1 : Fl) : (d.updateValve f0 f1).matrix = d.matrix := by
  unfold Duct.updateValve
  simp only
  split_ifs <;> rfl

/-- After every step of a conductor or valve, whatever the user changed in between, the matrix is that of a conductance
between 0 and the limit, and the network is told of every change of it. -/
theorem c64_matrix (valve : Bool) (edit : Nat → Duct → Duct) (he : ∀ n d, (edit n d).matrix = d.matrix)
    (f0 f1 : Nat → Fl) (d : Duct) (hd : c64Matrix d) (n : Nat) :
    let run := loop (fun k d => if valve then (edit k d).stepValve (f0 k) (f1 k)
      else (edit k d).stepConductor (f0 k) (f1 k))
    c64Matrix (run n d) ∧ (run (n + 1) d).matrix 0 = (run (n + 1) d).sysCond ∧ 0 ≤ (run (n + 1) d).sysCond ∧
      (run (n + 1) d).sysCond ≤ conductanceLimit ∧
      ((run (n + 1) d).matrix 0 ≠ (run n d).matrix 0 → (run (n + 1) d).update = true) := by
  intro run
  have one : ∀ k t, c64Matrix t → c64Matrix (if valve then (edit k t).stepValve (f0 k) (f1 k)
      else (edit k t).stepConductor (f0 k) (f1 k)) ∧
      (if valve then (edit k t).stepValve (f0 k) (f1 k) else (edit k t).stepConductor (f0 k) (f1 k)).matrix 0 =
        (if valve then (edit k t).stepValve (f0 k) (f1 k) else (edit k t).stepConductor (f0 k) (f1 k)).sysCond ∧
      0 ≤ (if valve then (edit k t).stepValve (f0 k) (f1 k) else (edit k t).stepConductor (f0 k) (f1 k)).sysCond ∧
      (if valve then (edit k t).stepValve (f0 k) (f1 k) else (edit k t).stepConductor (f0 k) (f1 k)).sysCond ≤
        conductanceLimit ∧
      ((if valve then (edit k t).stepValve (f0 k) (f1 k) else (edit k t).stepConductor (f0 k) (f1 k)).matrix 0 ≠
        t.matrix 0 →
        (if valve then (edit k t).stepValve (f0 k) (f1 k) else (edit k t).stepConductor (f0 k) (f1 k)).update =
          true) := by
    intro k t ht
    have hm := he k t
    by_cases a : valve
    · simp only [if_pos a]
      unfold Duct.stepValve
      have e := updateValve_matrix { edit k t with
        effCond := (edit k t).maxCond } (f0 k) (f1 k)
      have := finish_matrix (({ edit k t with
        effCond := (edit k t).maxCond } : Duct).updateValve (f0 k) (f1 k)) (f0 k) (f1 k) (by
          unfold c64Matrix
          rw [e]
          show (edit k t).matrix 1 = _ ∧ _
          rw [hm]
          exact ht)
      rw [e] at this
      rw [← hm]
      exact this
    · simp only [if_neg a]
      have := finish_matrix { edit k t with
        effCond := (edit k t).maxCond } (f0 k) (f1 k) (by
          unfold c64Matrix
          show (edit k t).matrix 1 = _ ∧ _
          rw [hm]
          exact ht)
      rw [← hm]
      exact this
  have hn : c64Matrix (run n d) := loop_inv (fun _ t => c64Matrix t) n hd (fun k _ t ht => (one k t ht).1)
  exact ⟨hn, (one n _ hn).2⟩

private theorem flow_of {d : Duct} {minLin : ℝ} {f0 f1 : Fl} (h : c64Flows minLin f0 f1) (h0 : 0 ≤ d.matrix 0) :
    d.flowRate f0 f1 = d.matrix 0 * (f0.p - f1.p) * f0.mw := by
  have e := epsPos
  have hl := h.lin
  have hd := h.drop
  have hf : d.flux f0.p f1.p = (f0.p - f1.p) * d.matrix 0 := by
    unfold Duct.flux
    rw [if_neg]
    rw [max_eq_left (by linarith), abs_of_nonneg (by linarith)]
    exact not_lt.2 h.big
  unfold Duct.flowRate
  rw [hf, if_neg (not_lt.2 (mul_nonneg (by linarith) h0))]
  ring

/-- The fluids of a flow, for the lemmas on admittance. -/
private theorem flows_abs {minLin : ℝ} {f0 f1 : Fl} (h : c64Flows minLin f0 f1) :
    |f0.p - f1.p| = f0.p - f1.p ∧ max minLin |f0.p - f1.p| = f0.p - f1.p ∧ dblEps < |f0.p - f1.p| := by
  have e := epsPos
  have hl := h.lin
  have hd := h.drop
  have a : |f0.p - f1.p| = f0.p - f1.p := abs_of_nonneg (by linarith)
  exact ⟨a, by rw [a]; exact max_eq_right hd, by rw [a]; linarith⟩

/-- The conductance of the effective conductivity `g` gives this flow, if it is not limited. -/
private theorem sys_flow {d : Duct} {f0 f1 : Fl} (g x minLin : ℝ) (h : c64Flows minLin f0 f1) (hg : 0 ≤ g)
    (hs : d.matrix 0 = limitRange 0 (computeAdmittance g minLin f0 f1 x) conductanceLimit)
    (hlim : computeAdmittance g minLin f0 f1 x ≤ conductanceLimit) (hr0 : 0 ≤ f0.rho) (hr1 : 0 ≤ f1.rho) :
    d.flowRate f0 f1 = computeAdmittance g minLin f0 f1 x * (f0.p - f1.p) * f0.mw := by
  have h0 : 0 ≤ computeAdmittance g minLin f0 f1 x := by
    have := (c64_monotone minLin f0 f1 x hr0 hr1).1 0 g hg
    rw [(c64_monotone minLin f0 f1 x hr0 hr1).2.1] at this
    exact this
  have hs' : d.matrix 0 = computeAdmittance g minLin f0 f1 x := by
    rw [hs]
    unfold limitRange
    rw [min_eq_left hlim, max_eq_left h0]
  rw [flow_of h (by rw [hs']; exact h0), hs']

/-- The flow of a law, with the weights of the source and of the mean. -/
private theorem law_flow {f0 f1 : Fl} (g x minLin : ℝ) (h : c64Flows minLin f0 f1) (hx : 1 / 2 ≤ x) (hx1 : x ≤ 1) :
    computeAdmittance g minLin f0 f1 x * (f0.p - f1.p) * f0.mw =
      c64law g (c64rho f0 f1) (f0.p - f1.p) x * (f0.mw / c64weight f0 f1) := by
  have e := epsPos
  have l := (c64_law g minLin f0 f1 x hx hx1 h.lin h.m0).1 h.m1
  rw [(flows_abs h).2.1] at l
  have hw : c64weight f0 f1 ≠ 0 := by
    have := h.m0
    have := h.m1
    unfold c64weight
    linarith
  rw [← l]
  field_simp

private theorem finish_off {d : Duct} (f0 f1 : Fl) (h : d.tune = .off) :
    (d.finish f0 f1).matrix 0 = limitRange 0 (computeAdmittance
      (d.effCond * (if d.block then 1 - d.blockage else 1)) d.minLin f0 f1 d.exponent) conductanceLimit := by
  unfold Duct.finish
  have ht : d.tuning f0 f1 = { d with
      tune := .off } := by
    unfold Duct.tuning
    rw [h]
  rw [ht]
  by_cases a : d.block
  · have a' : ({ d with
      tune := .off } : Duct).block = true := a
    simp only [if_pos a']
    rw [build_zero]
  · have a' : ¬({ d with
      tune := .off } : Duct).block = true := a
    simp only [if_neg a', mul_one]
    rw [build_zero]

/-- A conductor passes, towards the lower pressure, the flow of the momentum equation with its conductivity, less what is
blocked; this times the weight of the fluid that flows over the mean weight. -/
theorem c64_conductor (d : Duct) (f0 f1 : Fl) (h : c64Flows d.minLin f0 f1) (hr0 : 0 ≤ f0.rho) (hr1 : 0 ≤ f1.rho)
    (hx : 1 / 2 ≤ d.exponent) (hx1 : d.exponent ≤ 1) (ht : d.tune = .off) (hg : 0 ≤ d.maxCond) (b : ℝ)
    (hb : b = if d.block then d.blockage else 0) (hb1 : b ≤ 1)
    (hlim : computeAdmittance (d.maxCond * (1 - b)) d.minLin f0 f1 d.exponent ≤ conductanceLimit) :
    (d.stepConductor f0 f1).flowRate f0 f1 =
      c64law (d.maxCond * (1 - b)) (c64rho f0 f1) (f0.p - f1.p) d.exponent * (f0.mw / c64weight f0 f1) := by
  have e : (if d.block then 1 - d.blockage else 1) = 1 - b := by
    rw [hb]
    split_ifs
    · rfl
    · rw [sub_zero]
  have hs := finish_off (d := { d with
    effCond := d.maxCond }) f0 f1 ht
  replace hs : (d.stepConductor f0 f1).matrix 0 = limitRange 0 (computeAdmittance
      (d.maxCond * (if d.block then 1 - d.blockage else 1)) d.minLin f0 f1 d.exponent) conductanceLimit := hs
  rw [e] at hs
  rw [sys_flow _ _ _ h (mul_nonneg hg (by linarith)) hs hlim hr0 hr1, law_flow _ _ _ h hx hx1]

/-- The same with the fluids at the other ports gives the opposite flow. -/
theorem c64_reverse (d : Duct) (f0 f1 : Fl) (hn : d.tune = .off) :
    (d.stepConductor f1 f0).matrix 0 = (d.stepConductor f0 f1).matrix 0 ∧
    (d.stepConductor f1 f0).flowRate f1 f0 = -(d.stepConductor f0 f1).flowRate f0 f1 := by
  have e1 := finish_off (d := { d with
    effCond := d.maxCond }) f0 f1 hn
  have e2 := finish_off (d := { d with
    effCond := d.maxCond }) f1 f0 hn
  have hm : (d.stepConductor f1 f0).matrix 0 = (d.stepConductor f0 f1).matrix 0 := by
    show (({ d with
      effCond := d.maxCond } : Duct).finish f1 f0).matrix 0 = (({ d with
      effCond := d.maxCond } : Duct).finish f0 f1).matrix 0
    rw [e1, e2, (c64_symmetric _ _ f1 f0 _).1]
  have hf : (d.stepConductor f1 f0).flux f1.p f0.p = -(d.stepConductor f0 f1).flux f0.p f1.p := by
    unfold Duct.flux
    rw [hm, abs_sub_comm, max_comm]
    split_ifs
    · rw [neg_zero]
    · ring
  refine ⟨hm, ?_⟩
  unfold Duct.flowRate
  rw [hf]
  obtain ⟨q, hq⟩ : ∃ q, q = (d.stepConductor f0 f1).flux f0.p f1.p := ⟨_, rfl⟩
  rw [← hq]
  rcases lt_trichotomy q 0 with a | a | a
  · rw [if_pos a, if_neg (by linarith)]
    ring
  · rw [a]
    ring
  · rw [if_pos (by linarith : -q < 0), if_neg (by linarith : ¬q < 0)]
    ring

/-- A valve without leak passes what a conductor with its conductivity times its position passes; at position 0
nothing. -/
theorem c64_valve (d : Duct) (f0 f1 : Fl) (hl : d.leak = false) (hg : 0 ≤ d.maxCond * d.position)
    (ht : d.tune = .off) :
    (d.stepValve f0 f1).matrix 0 = ({ d with
      maxCond := d.maxCond * d.position }.stepConductor f0 f1).matrix 0 ∧
    (d.position = 0 → (d.stepValve f0 f1).matrix 0 = 0) := by
  have hu : ({ d with
      effCond := d.maxCond } : Duct).updateValve f0 f1 = { d with
      effCond := d.maxCond * d.position
      prevLeak := 0
      leakCond := 0 } := by
    unfold Duct.updateValve
    have hl' : ¬(({ d with
      effCond := d.maxCond } : Duct).leak = true) := by show ¬(d.leak = true); rw [hl]; decide
    simp only [if_neg hl']
    rw [if_neg (not_lt.2 hg)]
  have e : (d.stepValve f0 f1).matrix 0 = ({ d with
      maxCond := d.maxCond * d.position }.stepConductor f0 f1).matrix 0 := by
    have e1 : d.stepValve f0 f1 = (({ d with
      effCond := d.maxCond } : Duct).updateValve f0 f1).finish f0 f1 := rfl
    rw [e1, hu]
    refine (finish_off (d := { d with
      effCond := d.maxCond * d.position
      prevLeak := 0
      leakCond := 0 }) f0 f1 ht).trans ?_
    exact (finish_off (d := { d with
      maxCond := d.maxCond * d.position
      effCond := d.maxCond * d.position }) f0 f1 ht).symm
  refine ⟨e, ?_⟩
  intro h0
  have e1 : d.stepValve f0 f1 = (({ d with
    effCond := d.maxCond } : Duct).updateValve f0 f1).finish f0 f1 := rfl
  rw [e1, hu]
  refine (finish_off (d := { d with
    effCond := d.maxCond * d.position
    prevLeak := 0
    leakCond := 0 }) f0 f1 ht).trans ?_
  simp only [h0, mul_zero, zero_mul]
  have : computeAdmittance 0 d.minLin f0 f1 d.exponent = 0 := by
    unfold computeAdmittance
    simp
  rw [this]
  unfold limitRange conductanceLimit
  rw [min_eq_left (by positivity), max_self]

/-! ## Tuning -/

/-- The mass flow that the tuning asks for. -/
noncomputable def c64wanted (d : Duct) (f0 f1 : Fl) : ℝ :=
  match d.tune with
  | .mass => d.tuneMass
  | .trueVol => d.tuneVol * (if d.tuneVol ≥ 0 then f0.rho else f1.rho)
  | .stdVol => d.tuneVol * (12041 / 10000)
  | _ => 0

private theorem tuning_eq {d : Duct} (f0 f1 : Fl) (h : d.tune = .mass ∨ d.tune = .trueVol ∨ d.tune = .stdVol) :
    d.tuning f0 f1 = d.tuneFlow f0 f1 (c64wanted d f0 f1) := by
  unfold Duct.tuning c64wanted
  rcases h with h | h | h
  · rw [h]
  · rw [h]
    simp only
    split_ifs <;> rfl
  · rw [h]
    rfl

/-- A conductor or valve that is tuned to a flow passes it in this step, in the direction of the pressures, times the
weight of the fluid that flows over the mean weight; the maximum conductivity is set to what gives this flow with the
valve fully open, and tuning and blockage are switched off. -/
theorem c64_tuned (d : Duct) (f0 f1 : Fl) (h : c64Flows d.minLin f0 f1) (hr0 : 0 ≤ f0.rho) (hr1 : 0 ≤ f1.rho)
    (ht : d.tune = .mass ∨ d.tune = .trueVol ∨ d.tune = .stdVol)
    (hlim : |c64wanted d f0 f1| ≤ conductanceLimit * ((f0.p - f1.p) * c64weight f0 f1)) :
    (d.finish f0 f1).flowRate f0 f1 = |c64wanted d f0 f1| * (f0.mw / c64weight f0 f1) ∧
    (d.finish f0 f1).maxCond = predictConductivity (c64wanted d f0 f1) d.minLin f0 f1 d.exponent ∧
    (d.finish f0 f1).block = false ∧ (d.finish f0 f1).tune = .off := by
  have e := epsPos
  obtain ⟨q, hq⟩ : ∃ q, q = predictConductivity (c64wanted d f0 f1) d.minLin f0 f1 d.exponent := ⟨_, rfl⟩
  obtain ⟨r, hr⟩ : ∃ r : Duct, r = { d.tuneFlow f0 f1 (c64wanted d f0 f1) with
    sysCond := limitRange 0 (computeAdmittance q d.minLin f0 f1 d.exponent) conductanceLimit } := ⟨_, rfl⟩
  have hfin : d.finish f0 f1 = r.build := by
    unfold Duct.finish
    rw [tuning_eq f0 f1 ht, hr, hq]
    rfl
  have hs : (d.finish f0 f1).matrix 0 = limitRange 0 (computeAdmittance q d.minLin f0 f1 d.exponent)
      conductanceLimit := by
    rw [hfin, build_zero, hr]
  obtain ⟨m, u, hb⟩ := build_keeps r
  have hw : dblEps < c64weight f0 f1 := by
    have := h.m0
    have := h.m1
    unfold c64weight
    linarith
  have hdp : dblEps < f0.p - f1.p := lt_of_lt_of_le h.lin h.drop
  have rt := c64_round_trip (c64wanted d f0 f1) d.minLin f0 f1 d.exponent (flows_abs h).2.2 h.rho h.m0 h.m1
  rw [(flows_abs h).2.1, ← hq] at rt
  have hq0 : 0 ≤ q := by
    rw [hq]
    unfold predictConductivity
    have hr' : 1 / 2 * (f0.rho + f1.rho) > dblEps := by
      have := h.rho
      unfold c64rho at this
      linarith
    have hn : ¬(|f0.p - f1.p| < d.minLin) := by
      rw [(flows_abs h).1]
      exact not_lt.2 h.drop
    have hdp' : |f0.p - f1.p| > dblEps := (flows_abs h).2.2
    simp only [if_pos hdp', if_pos hr', if_neg hn]
    refine div_nonneg (abs_nonneg _) (power_nonneg ?_)
    unfold paPerKpa
    rw [(flows_abs h).1]
    exact mul_nonneg (by linarith) (by linarith)
  have hA : computeAdmittance q d.minLin f0 f1 d.exponent =
      |c64wanted d f0 f1| / ((f0.p - f1.p) * c64weight f0 f1) := by
    rw [← rt]
    have : f0.p - f1.p ≠ 0 := by linarith
    have : c64weight f0 f1 ≠ 0 := by linarith
    field_simp
  have hlim' : computeAdmittance q d.minLin f0 f1 d.exponent ≤ conductanceLimit := by
    rw [hA, div_le_iff₀ (mul_pos (by linarith) (by linarith))]
    exact hlim
  refine ⟨?_, ?_, ?_, ?_⟩
  · rw [sys_flow _ _ _ h hq0 hs hlim' hr0 hr1, hA]
    have : f0.p - f1.p ≠ 0 := by linarith
    have : c64weight f0 f1 ≠ 0 := by linarith
    field_simp
  · rw [hfin, hb, hr, hq]
    rfl
  · rw [hfin, hb, hr]
    rfl
  · rw [hfin, hb, hr]
    rfl

private theorem finish_off_keeps {d : Duct} (f0 f1 : Fl) (h : d.tune = .off) :
    (d.finish f0 f1).maxCond = d.maxCond ∧ (d.finish f0 f1).tune = .off := by
  obtain ⟨v, hv⟩ : ∃ v : Duct, v = (if (d.tuning f0 f1).block then
      { d.tuning f0 f1 with
        effCond := (d.tuning f0 f1).effCond * (1 - (d.tuning f0 f1).blockage) }
    else d.tuning f0 f1) := ⟨_, rfl⟩
  have ht : d.tuning f0 f1 = { d with
      tune := .off } := by
    unfold Duct.tuning
    rw [h]
  have hv2 : v.maxCond = d.maxCond ∧ v.tune = .off := by
    rw [hv, ht]
    split_ifs
    · exact ⟨rfl, rfl⟩
    · exact ⟨rfl, rfl⟩
  have e : d.finish f0 f1 = ({ v with
      sysCond := limitRange 0 (computeAdmittance v.effCond v.minLin f0 f1 v.exponent) conductanceLimit } :
        Duct).build := by
    rw [hv]
    rfl
  obtain ⟨m, u, hb⟩ := build_keeps ({ v with
      sysCond := limitRange 0 (computeAdmittance v.effCond v.minLin f0 f1 v.exponent) conductanceLimit } : Duct)
  rw [e, hb]
  exact hv2

/-- Tuned while there is no pressure difference, a conductor is closed for good: its maximum conductivity is zero, and
whatever the pressures later, it has no conductance until its conductivity is set or tuned again. -/
theorem c64_tuned_shut (d : Duct) (f0 f1 : Fl) (ht : d.tune = .mass ∨ d.tune = .trueVol ∨ d.tune = .stdVol)
    (hp : |f0.p - f1.p| ≤ dblEps) (g0 g1 : Nat → Fl) (edit : Nat → Duct → Duct)
    (he : ∀ k t, (edit k t).maxCond = t.maxCond ∧ (edit k t).tune = t.tune) (n : Nat) :
    (d.stepConductor f0 f1).maxCond = 0 ∧
    (loop (fun k t => (edit k t).stepConductor (g0 k) (g1 k)) (n + 1) (d.stepConductor f0 f1)).matrix 0 = 0 := by
  obtain ⟨w, hw⟩ : ∃ w : Duct, w = { d with
    effCond := d.maxCond } := ⟨_, rfl⟩
  have hwt : w.tune = .mass ∨ w.tune = .trueVol ∨ w.tune = .stdVol := by rw [hw]; exact ht
  have h0 : (d.stepConductor f0 f1).maxCond = 0 ∧ (d.stepConductor f0 f1).tune = .off := by
    obtain ⟨r, hr⟩ : ∃ r : Duct, r = { w.tuneFlow f0 f1 (c64wanted w f0 f1) with
      sysCond := limitRange 0 (computeAdmittance (predictConductivity (c64wanted w f0 f1) w.minLin f0 f1 w.exponent)
        w.minLin f0 f1 w.exponent) conductanceLimit } := ⟨_, rfl⟩
    have hfin : d.stepConductor f0 f1 = r.build := by
      have : d.stepConductor f0 f1 = w.finish f0 f1 := by rw [hw]; rfl
      rw [this]
      unfold Duct.finish
      rw [tuning_eq f0 f1 hwt, hr]
      rfl
    obtain ⟨m, u, hb⟩ := build_keeps r
    rw [hfin, hb, hr]
    refine ⟨?_, rfl⟩
    show predictConductivity (c64wanted w f0 f1) w.minLin f0 f1 w.exponent = 0
    unfold predictConductivity
    exact if_neg (not_lt.2 hp)
  refine ⟨h0.1, ?_⟩
  have hn : ∀ m, (loop (fun k t => (edit k t).stepConductor (g0 k) (g1 k)) m (d.stepConductor f0 f1)).maxCond = 0 ∧
      (loop (fun k t => (edit k t).stepConductor (g0 k) (g1 k)) m (d.stepConductor f0 f1)).tune = .off := by
    intro m
    refine loop_inv (fun _ (t : Duct) => t.maxCond = 0 ∧ t.tune = .off) m h0 ?_
    intro k _ t htt
    have k1 := he k t
    have := finish_off_keeps (d := { edit k t with
      effCond := (edit k t).maxCond }) (g0 k) (g1 k) (k1.2.trans htt.2)
    exact ⟨this.1.trans (k1.1.trans htt.1), this.2⟩
  obtain ⟨t, htd⟩ : ∃ t, t = edit n (loop (fun k t => (edit k t).stepConductor (g0 k) (g1 k)) n
    (d.stepConductor f0 f1)) := ⟨_, rfl⟩
  have t0 : t.maxCond = 0 ∧ t.tune = .off := by
    rw [htd]
    exact ⟨(he _ _).1.trans (hn n).1, (he _ _).2.trans (hn n).2⟩
  have e : loop (fun k t => (edit k t).stepConductor (g0 k) (g1 k)) (n + 1) (d.stepConductor f0 f1) =
      t.stepConductor (g0 n) (g1 n) := by
    rw [htd]
    rfl
  rw [e]
  refine (finish_off (d := { t with
    effCond := t.maxCond }) (g0 n) (g1 n) t0.2).trans ?_
  simp only [t0.1, zero_mul]
  have : computeAdmittance 0 t.minLin (g0 n) (g1 n) t.exponent = 0 := by
    unfold computeAdmittance
    simp
  rw [this]
  unfold limitRange conductanceLimit
  rw [min_eq_left (by positivity), max_self]

/-! ## Leaks -/

private theorem leak_on {d : Duct} (f0 f1 : Fl) (hl : d.leak = true) (hn : d.prevLeak ≠ d.leakRate) :
    (d.updateValve f0 f1).leakCond = predictConductivity d.leakRate d.minLin f0 f1 (1 / 2) ∧
    (d.updateValve f0 f1).prevLeak = d.leakRate ∧
    (d.updateValve f0 f1).effCond =
      max (d.maxCond * d.position) (predictConductivity d.leakRate d.minLin f0 f1 (1 / 2)) := by
  unfold Duct.updateValve
  simp only [if_pos hl, if_pos hn]
  by_cases a : d.maxCond * d.position < predictConductivity d.leakRate d.minLin f0 f1 (1 / 2)
  · rw [if_pos a]
    exact ⟨rfl, rfl, (max_eq_right a.le).symm⟩
  · rw [if_neg a]
    exact ⟨rfl, rfl, (max_eq_left (not_lt.1 a)).symm⟩

private theorem leak_same {d : Duct} (f0 f1 : Fl) (hl : d.leak = true) (hn : d.prevLeak = d.leakRate) :
    (d.updateValve f0 f1).leakCond = d.leakCond ∧ (d.updateValve f0 f1).prevLeak = d.prevLeak := by
  unfold Duct.updateValve
  have hn' : ¬(d.prevLeak ≠ d.leakRate) := not_not.2 hn
  simp only [if_pos hl, if_neg hn']
  split_ifs <;> exact ⟨rfl, rfl⟩

private theorem update_other (d : Duct) (f0 f1 : Fl) :
    ∃ a b c, d.updateValve f0 f1 = { d with
      leakCond := a
      prevLeak := b
      effCond := c } := by
  obtain ⟨q, hq⟩ : ∃ q, q = d.updateValve f0 f1 := ⟨_, rfl⟩
  refine ⟨q.leakCond, q.prevLeak, q.effCond, ?_⟩
  rw [hq]
  unfold Duct.updateValve
  by_cases h1 : d.leak = true
  · by_cases h2 : d.prevLeak ≠ d.leakRate
    · simp only [if_pos h1, if_pos h2]
      split_ifs <;> rfl
    · simp only [if_pos h1, if_neg h2]
      split_ifs <;> rfl
  · simp only [if_neg h1]
    split_ifs <;> rfl

/-- When a leak is put into a valve with the usual exponent, the valve passes the larger of its own flow and the leak,
this times the weight of the fluid that flows over the mean weight. -/
theorem c64_leak (d : Duct) (f0 f1 : Fl) (h : c64Flows d.minLin f0 f1) (hr0 : 0 ≤ f0.rho) (hr1 : 0 ≤ f1.rho)
    (hx : d.exponent = 1 / 2) (ht : d.tune = .off) (hb : d.block = false) (hl : d.leak = true)
    (hn : d.prevLeak ≠ d.leakRate) (hg : 0 ≤ d.maxCond * d.position) (hr : 0 ≤ d.leakRate)
    (hlim : max (c64law (d.maxCond * d.position) (c64rho f0 f1) (f0.p - f1.p) (1 / 2)) d.leakRate ≤
      conductanceLimit * ((f0.p - f1.p) * c64weight f0 f1)) :
    (d.stepValve f0 f1).flowRate f0 f1 =
      max (c64law (d.maxCond * d.position) (c64rho f0 f1) (f0.p - f1.p) (1 / 2)) d.leakRate *
        (f0.mw / c64weight f0 f1) := by
  have e := epsPos
  obtain ⟨w, hw⟩ : ∃ w : Duct, w = { d with
    effCond := d.maxCond } := ⟨_, rfl⟩
  obtain ⟨g, hgd⟩ : ∃ g, g = predictConductivity d.leakRate d.minLin f0 f1 (1 / 2) := ⟨_, rfl⟩
  have l := leak_on (d := w) f0 f1 (by rw [hw]; exact hl) (by rw [hw]; exact hn)
  have hwe : w.maxCond = d.maxCond ∧ w.position = d.position ∧ w.leakRate = d.leakRate ∧ w.minLin = d.minLin := by
    rw [hw]
    exact ⟨rfl, rfl, rfl, rfl⟩
  rw [hwe.1, hwe.2.1, hwe.2.2.1, hwe.2.2.2, ← hgd] at l
  obtain ⟨a, b, c, ho⟩ := update_other w f0 f1
  obtain ⟨u, hu⟩ : ∃ u, u = w.updateValve f0 f1 := ⟨_, rfl⟩
  have hut : u.tune = .off ∧ u.block = false ∧ u.minLin = d.minLin ∧ u.exponent = 1 / 2 := by
    rw [hu, ho, hw]
    exact ⟨ht, hb, rfl, hx⟩
  have hs : (d.stepValve f0 f1).matrix 0 = limitRange 0 (computeAdmittance (max (d.maxCond * d.position) g) d.minLin f0 f1
      (1 / 2)) conductanceLimit := by
    have : d.stepValve f0 f1 = u.finish f0 f1 := by rw [hu, hw]; rfl
    rw [this, finish_off f0 f1 hut.1, hut.2.1, hut.2.2.1, hut.2.2.2, hu, l.2.2]
    simp
  have hdp : dblEps < f0.p - f1.p := lt_of_lt_of_le h.lin h.drop
  have hwt : dblEps < c64weight f0 f1 := by
    have := h.m0
    have := h.m1
    unfold c64weight
    linarith
  have rt := c64_round_trip d.leakRate d.minLin f0 f1 (1 / 2) (flows_abs h).2.2 h.rho h.m0 h.m1
  rw [(flows_abs h).2.1, ← hgd, abs_of_nonneg hr] at rt
  have la := (c64_law (d.maxCond * d.position) d.minLin f0 f1 (1 / 2) (le_refl _) (by norm_num) h.lin h.m0).1 h.m1
  rw [(flows_abs h).2.1] at la
  have mono := (c64_monotone d.minLin f0 f1 (1 / 2) hr0 hr1).1
  obtain ⟨DW, hDW⟩ : ∃ DW, DW = (f0.p - f1.p) * c64weight f0 f1 := ⟨_, rfl⟩
  have hDWp : 0 < DW := by rw [hDW]; exact mul_pos (by linarith) (by linarith)
  have hA : computeAdmittance (max (d.maxCond * d.position) g) d.minLin f0 f1 (1 / 2) * DW =
      max (c64law (d.maxCond * d.position) (c64rho f0 f1) (f0.p - f1.p) (1 / 2)) d.leakRate := by
    rw [mul_assoc, ← hDW] at rt la
    rw [← rt, ← la]
    rcases le_total (d.maxCond * d.position) g with c | c
    · rw [max_eq_right c, max_eq_right (mul_le_mul_of_nonneg_right (mono _ _ c) hDWp.le)]
    · rw [max_eq_left c, max_eq_left (mul_le_mul_of_nonneg_right (mono _ _ c) hDWp.le)]
  have hlim' : computeAdmittance (max (d.maxCond * d.position) g) d.minLin f0 f1 (1 / 2) ≤ conductanceLimit := by
    rw [← hDW, ← hA] at hlim
    exact le_of_mul_le_mul_right hlim hDWp
  rw [sys_flow _ _ _ h (le_max_of_le_left hg) hs hlim' hr0 hr1, ← hA, hDW]
  have : c64weight f0 f1 ≠ 0 := by linarith
  field_simp

/-- A leak that is put in while there is no pressure difference never leaks: whatever the pressures later, the valve keeps
no leak conductivity as long as the malfunction stays as it is. -/
theorem c64_leak_never (d : Duct) (hl : d.leak = true) (hn : d.prevLeak ≠ d.leakRate) (f0 f1 : Nat → Fl)
    (hp : |(f0 0).p - (f1 0).p| ≤ dblEps) (n : Nat) (edit : Nat → Duct → Duct)
    (he : ∀ k t, (edit k t).leak = t.leak ∧ (edit k t).leakRate = t.leakRate ∧ (edit k t).prevLeak = t.prevLeak ∧
      (edit k t).leakCond = t.leakCond) :
    (loop (fun k t => (edit k t).stepValve (f0 k) (f1 k)) (n + 1) d).leakCond = 0 := by
  have keep : ∀ (t : Duct) (g0 g1 : Fl), (t.finish g0 g1).leakCond = t.leakCond ∧
      (t.finish g0 g1).prevLeak = t.prevLeak ∧ (t.finish g0 g1).leak = t.leak ∧
      (t.finish g0 g1).leakRate = t.leakRate := by
    intro t g0 g1
    obtain ⟨u, hu⟩ : ∃ u, u = t.tuning g0 g1 := ⟨_, rfl⟩
    have hu4 : u.leakCond = t.leakCond ∧ u.prevLeak = t.prevLeak ∧ u.leak = t.leak ∧ u.leakRate = t.leakRate := by
      rw [hu]
      unfold Duct.tuning
      cases t.tune with
      | trueVol =>
        simp only
        split_ifs <;> exact ⟨rfl, rfl, rfl, rfl⟩
      | _ => exact ⟨rfl, rfl, rfl, rfl⟩
    obtain ⟨v, hv⟩ : ∃ v : Duct, v = (if u.block then
        { u with
          effCond := u.effCond * (1 - u.blockage) }
      else u) := ⟨_, rfl⟩
    have hv4 : v.leakCond = t.leakCond ∧ v.prevLeak = t.prevLeak ∧ v.leak = t.leak ∧ v.leakRate = t.leakRate := by
      rw [hv]
      split_ifs
      · exact hu4
      · exact hu4
    have e : t.finish g0 g1 = ({ v with
        sysCond := limitRange 0 (computeAdmittance v.effCond v.minLin g0 g1 v.exponent) conductanceLimit } :
          Duct).build := by
      rw [hv, hu]
      rfl
    obtain ⟨m, uu, hb⟩ := build_keeps ({ v with
        sysCond := limitRange 0 (computeAdmittance v.effCond v.minLin g0 g1 v.exponent) conductanceLimit } : Duct)
    rw [e, hb]
    exact hv4
  have step : ∀ (t : Duct) (g0 g1 : Fl), (t.stepValve g0 g1).leakCond =
      (({ t with
        effCond := t.maxCond } : Duct).updateValve g0 g1).leakCond ∧ (t.stepValve g0 g1).prevLeak =
      (({ t with
        effCond := t.maxCond } : Duct).updateValve g0 g1).prevLeak ∧ (t.stepValve g0 g1).leak = t.leak ∧
      (t.stepValve g0 g1).leakRate = t.leakRate := by
    intro t g0 g1
    obtain ⟨a, b, c, ho⟩ := update_other ({ t with
        effCond := t.maxCond } : Duct) g0 g1
    have k := keep (({ t with
        effCond := t.maxCond } : Duct).updateValve g0 g1) g0 g1
    refine ⟨k.1, k.2.1, k.2.2.1.trans ?_, k.2.2.2.trans ?_⟩
    · rw [ho]
    · rw [ho]
  have : ∀ m, (loop (fun k t => (edit k t).stepValve (f0 k) (f1 k)) (m + 1) d).leakCond = 0 ∧
      (loop (fun k t => (edit k t).stepValve (f0 k) (f1 k)) (m + 1) d).leak = true ∧
      (loop (fun k t => (edit k t).stepValve (f0 k) (f1 k)) (m + 1) d).prevLeak =
        (loop (fun k t => (edit k t).stepValve (f0 k) (f1 k)) (m + 1) d).leakRate := by
    intro m
    induction m with
    | zero =>
      obtain ⟨t, ht⟩ : ∃ t, t = edit 0 d := ⟨_, rfl⟩
      have hed := he 0 d
      rw [← ht] at hed
      have s := step t (f0 0) (f1 0)
      have l := leak_on (d := { t with
        effCond := t.maxCond }) (f0 0) (f1 0) (hed.1.trans hl) (by
          show t.prevLeak ≠ t.leakRate
          rw [hed.2.1, hed.2.2.1]
          exact hn)
      have e1 : loop (fun k t => (edit k t).stepValve (f0 k) (f1 k)) (0 + 1) d = t.stepValve (f0 0) (f1 0) := by
        rw [ht]
        rfl
      rw [e1]
      refine ⟨?_, s.2.2.1.trans (hed.1.trans hl), ?_⟩
      · rw [s.1, l.1]
        unfold predictConductivity
        exact if_neg (not_lt.2 hp)
      · rw [s.2.1, l.2.1, s.2.2.2]
    | succ m ih =>
      obtain ⟨r, hr⟩ : ∃ r, r = loop (fun k t => (edit k t).stepValve (f0 k) (f1 k)) (m + 1) d := ⟨_, rfl⟩
      rw [← hr] at ih
      obtain ⟨t, ht⟩ : ∃ t, t = edit (m + 1) r := ⟨_, rfl⟩
      have hed := he (m + 1) r
      rw [← ht] at hed
      have s := step t (f0 (m + 1)) (f1 (m + 1))
      have l := leak_same (d := { t with
        effCond := t.maxCond }) (f0 (m + 1)) (f1 (m + 1)) (hed.1.trans ih.2.1) (by
          show t.prevLeak = t.leakRate
          rw [hed.2.1, hed.2.2.1]
          exact ih.2.2)
      have e1 : loop (fun k t => (edit k t).stepValve (f0 k) (f1 k)) (m + 1 + 1) d =
          t.stepValve (f0 (m + 1)) (f1 (m + 1)) := by
        rw [ht, hr]
        rfl
      rw [e1]
      refine ⟨?_, s.2.2.1.trans (hed.1.trans ih.2.1), ?_⟩
      · rw [s.1, l.1]
        exact hed.2.2.2.trans ih.1
      · rw [s.2.1, l.2, s.2.2.2]
        show t.prevLeak = t.leakRate
        rw [hed.2.1, hed.2.2.1]
        exact ih.2.2
  exact (this n).1

/-- The tuning of a valve does not see its position: it passes the tuned flow in this step only, and from the next step
on the tuned flow times the position. -/
theorem c64_valve_tuned (d : Duct) (f0 f1 : Fl) (h : c64Flows d.minLin f0 f1) (hr0 : 0 ≤ f0.rho) (hr1 : 0 ≤ f1.rho)
    (ht : d.tune = .mass) (hl : d.leak = false) (hp0 : 0 ≤ d.position) (hp1 : d.position ≤ 1)
    (hlim : |d.tuneMass| ≤ conductanceLimit * ((f0.p - f1.p) * c64weight f0 f1)) :
    (d.stepValve f0 f1).flowRate f0 f1 = |d.tuneMass| * (f0.mw / c64weight f0 f1) ∧
    ((d.stepValve f0 f1).stepValve f0 f1).flowRate f0 f1 =
      d.position * (|d.tuneMass| * (f0.mw / c64weight f0 f1)) := by
  have e := epsPos
  obtain ⟨a, b, c, ho⟩ := update_other ({ d with
    effCond := d.maxCond } : Duct) f0 f1
  obtain ⟨u, hu⟩ : ∃ u, u = ({ d with
    effCond := d.maxCond } : Duct).updateValve f0 f1 := ⟨_, rfl⟩
  have hus : d.stepValve f0 f1 = u.finish f0 f1 := by rw [hu]; rfl
  have hu' : u.tune = .mass ∧ u.minLin = d.minLin ∧ u.tuneMass = d.tuneMass ∧ u.position = d.position ∧
      u.leak = false ∧ u.exponent = d.exponent := by
    rw [hu, ho]
    exact ⟨ht, rfl, rfl, rfl, hl, rfl⟩
  have hw : c64wanted u f0 f1 = d.tuneMass := by
    unfold c64wanted
    rw [hu'.1]
    exact hu'.2.2.1
  have T := c64_tuned u f0 f1 (by rw [hu'.2.1]; exact h) hr0 hr1 (.inl hu'.1) (by rw [hw]; exact hlim)
  rw [hw, hu'.2.1, hu'.2.2.2.2.2] at T
  rw [hus]
  refine ⟨T.1, ?_⟩
  obtain ⟨v, hv⟩ : ∃ v, v = u.finish f0 f1 := ⟨_, rfl⟩
  obtain ⟨r, hr⟩ : ∃ r : Duct, r = { u.tuneFlow f0 f1 (c64wanted u f0 f1) with
    sysCond := limitRange 0 (computeAdmittance (predictConductivity (c64wanted u f0 f1) u.minLin f0 f1 u.exponent)
      u.minLin f0 f1 u.exponent) conductanceLimit } := ⟨_, rfl⟩
  have hfin : v = r.build := by
    rw [hv]
    unfold Duct.finish
    rw [tuning_eq f0 f1 (.inl hu'.1), hr]
    rfl
  obtain ⟨m, uu, hb⟩ := build_keeps r
  have hv' : v.position = d.position ∧ v.leak = false ∧ v.exponent = d.exponent ∧ v.minLin = d.minLin := by
    rw [hfin, hb, hr]
    exact ⟨hu'.2.2.2.1, hu'.2.2.2.2.1, hu'.2.2.2.2.2, hu'.2.1⟩
  rw [← hv] at T ⊢
  obtain ⟨g, hg⟩ : ∃ g, g = predictConductivity d.tuneMass d.minLin f0 f1 d.exponent := ⟨_, rfl⟩
  rw [← hg] at T
  have rt := c64_round_trip d.tuneMass d.minLin f0 f1 d.exponent (flows_abs h).2.2 h.rho h.m0 h.m1
  rw [(flows_abs h).2.1, ← hg] at rt
  have hg0 : 0 ≤ g := by
    rw [hg]
    unfold predictConductivity
    have hr' : 1 / 2 * (f0.rho + f1.rho) > dblEps := by
      have := h.rho
      unfold c64rho at this
      linarith
    have hn : ¬(|f0.p - f1.p| < d.minLin) := by
      rw [(flows_abs h).1]
      exact not_lt.2 h.drop
    have hdp' : |f0.p - f1.p| > dblEps := (flows_abs h).2.2
    simp only [if_pos hdp', if_pos hr', if_neg hn]
    refine div_nonneg (abs_nonneg _) (power_nonneg ?_)
    unfold paPerKpa
    have := (flows_abs h).2.2
    exact mul_nonneg (by linarith) (by linarith)
  have hgp : 0 ≤ v.maxCond * v.position := by rw [T.2.1, hv'.1]; exact mul_nonneg hg0 hp0
  have V := (c64_valve v f0 f1 hv'.2.1 hgp T.2.2.2).1
  have hvs := finish_off (d := { v with
    maxCond := v.maxCond * v.position
    effCond := v.maxCond * v.position }) f0 f1 T.2.2.2
  have hs : (v.stepValve f0 f1).matrix 0 = limitRange 0 (computeAdmittance (g * d.position) d.minLin f0 f1 d.exponent)
      conductanceLimit := by
    rw [V]
    refine hvs.trans ?_
    simp only [T.2.2.1, T.2.1, hv'.1, hv'.2.2.1, hv'.2.2.2]
    simp
  have hdp : dblEps < f0.p - f1.p := lt_of_lt_of_le h.lin h.drop
  have hwt : dblEps < c64weight f0 f1 := by
    have := h.m0
    have := h.m1
    unfold c64weight
    linarith
  have hlin := (c64_monotone d.minLin f0 f1 d.exponent hr0 hr1).2.2 g d.position
  have hA : computeAdmittance g d.minLin f0 f1 d.exponent = |d.tuneMass| / ((f0.p - f1.p) * c64weight f0 f1) := by
    rw [← rt]
    have : f0.p - f1.p ≠ 0 := by linarith
    have : c64weight f0 f1 ≠ 0 := by linarith
    field_simp
  have hlim' : computeAdmittance (g * d.position) d.minLin f0 f1 d.exponent ≤ conductanceLimit := by
    have h1 : |d.tuneMass| / ((f0.p - f1.p) * c64weight f0 f1) ≤ conductanceLimit := by
      rw [div_le_iff₀ (mul_pos (by linarith) (by linarith))]
      exact hlim
    have h2 : 0 ≤ |d.tuneMass| / ((f0.p - f1.p) * c64weight f0 f1) :=
      div_nonneg (abs_nonneg _) (mul_nonneg (by linarith) (by linarith))
    rw [hlin, hA]
    exact (mul_le_of_le_one_right h2 hp1).trans h1
  rw [sys_flow _ _ _ h (mul_nonneg hg0 hp0) hs hlim' hr0 hr1, hlin, hA]
  have : f0.p - f1.p ≠ 0 := by linarith
  have : c64weight f0 f1 ≠ 0 := by linarith
  field_simp

/-! ## Cases -/

/-- Two fluids with 10 kPa between them, the second one heavier. -/
private noncomputable def exA : Fl := ⟨1, 29, 110⟩
private noncomputable def exB : Fl := ⟨1, 29, 100⟩
private noncomputable def exC : Fl := ⟨1, 44, 100⟩

private theorem exEps : (dblEps : ℝ) < 1 / 100000 := by unfold dblEps; norm_num

private theorem exAB : c64Flows (1 / 10) exA exB := by
  have e := exEps
  have e0 := epsPos
  constructor <;> (try simp only [exA, exB, c64rho]) <;> linarith

private theorem exAC : c64Flows (1 / 10) exA exC := by
  have e := exEps
  have e0 := epsPos
  constructor <;> (try simp only [exA, exC, c64rho]) <;> linarith

/-- A half open valve of conductivity 0.01. -/
private noncomputable def exD : Duct where
  maxCond := 1 / 100
  effCond := 0
  sysCond := 0
  exponent := 1 / 2
  tune := .off
  tuneMass := 2
  tuneVol := 0
  minLin := 1 / 10
  block := true
  blockage := 1 / 4
  matrix := fun _ => 0
  update := false
  position := 1 / 2
  leak := false
  leakRate := 3
  prevLeak := 0
  leakCond := 0

private theorem exSqrt : (1 * (1000 * (110 - 100)) : ℝ) ^ ((1 : ℝ) / 2) = 100 := by
  rw [← Real.sqrt_eq_rpow, show (1 * (1000 * (110 - 100)) : ℝ) = 100 ^ 2 by norm_num]
  exact Real.sqrt_sq (by norm_num)

/-- The conductor, a quarter of it blocked, passes 0.75 kg/s. -/
example : (exD.stepConductor exA exB).flowRate exA exB = 3 / 4 := by
  have e := c64_conductor exD exA exB exAB (by norm_num [exA]) (by norm_num [exB]) (by norm_num [exD])
    (by norm_num [exD]) rfl (by norm_num [exD]) (1 / 4) (by norm_num [exD]) (by norm_num) (by
      have l := law_flow (1 / 100 * (1 - 1 / 4)) (1 / 2) (1 / 10) exAB (by norm_num) (by norm_num)
      simp only [c64law, c64rho, c64weight, exA, exB] at l
      norm_num [exSqrt] at l
      simp only [exD, exA, exB, conductanceLimit]
      norm_num
      linarith)
  rw [e]
  simp only [c64law, c64rho, c64weight, exA, exB, exD]
  rw [show ((1 : ℝ) + 1) / 2 = 1 by norm_num, exSqrt]
  norm_num

/-- Tuned to 2 kg/s the valve passes 2 kg/s once and then half of it. -/
example : ({ exD with
    tune := .mass }.stepValve exA exB).flowRate exA exB = 2 ∧
    (({ exD with
    tune := .mass }.stepValve exA exB).stepValve exA exB).flowRate exA exB = 1 := by
  have e := c64_valve_tuned { exD with
    tune := .mass } exA exB exAB (by norm_num [exA]) (by norm_num [exB]) rfl rfl (by norm_num [exD])
    (by norm_num [exD]) (by norm_num [exA, exB, exD, conductanceLimit, c64weight])
  simp only [c64weight, exA, exB, exD] at e
  norm_num at e
  exact e

/-- With different weights the tuned flow is missed: 2 kg/s become less than 1.6 kg/s. -/
example : ({ exD with
    tune := .mass }.finish exA exC).flowRate exA exC < 16 / 10 := by
  have e := (c64_tuned { exD with
    tune := .mass } exA exC exAC (by norm_num [exA]) (by norm_num [exC]) (.inl rfl)
    (by norm_num [exA, exC, exD, conductanceLimit, c64weight, c64wanted])).1
  rw [e]
  simp only [c64weight, c64wanted, exA, exC, exD]
  norm_num

/-- A leak of 3 kg/s through the valve that alone would pass 0.5 kg/s. -/
example : ({ exD with
    block := false
    leak := true }.stepValve exA exB).flowRate exA exB = 3 := by
  have hm : max (c64law (1 / 100 * (1 / 2)) (c64rho exA exB) (exA.p - exB.p) (1 / 2)) 3 = 3 := by
    simp only [c64law, c64rho, exA, exB]
    rw [show ((1 : ℝ) + 1) / 2 = 1 by norm_num, exSqrt]
    norm_num
  have e := c64_leak { exD with
    block := false
    leak := true } exA exB exAB (by norm_num [exA]) (by norm_num [exB]) rfl rfl rfl rfl (by norm_num [exD])
    (by norm_num [exD]) (by norm_num [exD]) (by
      show max (c64law (1 / 100 * (1 / 2)) (c64rho exA exB) (exA.p - exB.p) (1 / 2)) 3 ≤ _
      rw [hm]
      norm_num [exA, exB, conductanceLimit, c64weight])
  refine e.trans ?_
  show max (c64law (1 / 100 * (1 / 2)) (c64rho exA exB) (exA.p - exB.p) (1 / 2)) 3 * _ = 3
  rw [hm]
  norm_num [exA, exB, c64weight]

/-- The conditions of the other theorems can be met. -/
example : c64Matrix exD ∧ exD.position ≠ 0 ∧ |exA.p - exA.p| ≤ dblEps := by
  refine ⟨⟨?_, ?_, rfl⟩, by norm_num [exD], ?_⟩
  · exact neg_zero.symm
  · exact neg_zero.symm
  · rw [sub_self, abs_zero]
    exact epsPos.le

end Gunns.Props
