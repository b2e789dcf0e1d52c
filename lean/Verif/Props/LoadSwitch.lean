import Verif.Elect.LoadSwitch
import Mathlib.Tactic.Linarith
import Mathlib.Tactic.FieldSimp
import Mathlib.Tactic.Ring
import Mathlib.Tactic.Positivity
import Mathlib.Algebra.Order.BigOperators.Group.List

/-!
# C95: the switch with user loads, and its short circuit
-/

set_option linter.unusedSectionVars false

namespace Gunns.Props

open Gunns Gunns.LoadSw

variable {K : Type*} [Field K] [LinearOrder K] [IsStrictOrderedRing K]

/-! ## The short circuit -/

/-- A short of constant power takes that power, and one of constant current that current, at any voltage above the least one. -/
theorem c95_short_takes (s : Short K) (v x : K) :
    (s.constP = some x → dblEps ≤ v * v → v * v * (s.compute v).cond = |x|)
      ∧ (s.constP = none → s.constI = some x → dblEps ≤ |v| → |v| * (s.compute v).cond = |x|)
      ∧ (s.constP = none → s.constI = none → s.initP = none → s.initI = none → s.resist = some x → dblEps ≤ x →
          x * (s.compute v).cond = 1)
      ∧ (s.constP = none → s.constI = none → s.initP = none → s.initI = none → s.resist = none → (s.compute v).cond = 0) := by
  have he := dblEps_pos (K := K)
  refine ⟨fun h hv => ?_, fun h h1 hv => ?_, fun h h1 h2 h3 h4 hx => ?_, fun h h1 h2 h3 h4 => ?_⟩
  · simp only [Short.compute, Short.next, h, ofPower, max_eq_left hv]
    exact mul_div_cancel₀ _ (ne_of_gt (lt_of_lt_of_le he hv))
  · simp only [Short.compute, Short.next, h, h1, ofCurrent, max_eq_left hv]
    exact mul_div_cancel₀ _ (ne_of_gt (lt_of_lt_of_le he hv))
  · simp only [Short.compute, Short.next, h, h1, h2, h3, h4, max_eq_left hx]
    exact mul_one_div_cancel (ne_of_gt (lt_of_lt_of_le he hx))
  · simp only [Short.compute, Short.next, h, h1, h2, h3, h4]

/-- The conductance of a short is never negative. -/
theorem c95_short_nonneg (s : Short K) (vs : List K) (h : 0 ≤ s.cond) : 0 ≤ (vs.foldl Short.compute s).cond := by
  have he := dblEps_pos (K := K)
  have one : ∀ (s : Short K) (v : K), 0 ≤ s.cond → 0 ≤ (s.compute v).cond := by
    intro s v h
    have hp : ∀ p : K, 0 ≤ ofPower p v := fun p => div_nonneg (abs_nonneg _) (he.le.trans (le_max_right _ _))
    have hi : ∀ i : K, 0 ≤ ofCurrent i v := fun i => div_nonneg (abs_nonneg _) (he.le.trans (le_max_right _ _))
    simp only [Short.compute, Short.next]
    repeat' split
    all_goals first | exact hp _ | exact hi _ | exact h | exact le_refl _ | skip
    exact div_nonneg zero_le_one (he.le.trans (le_max_right _ _))
  induction vs generalizing s with
  | nil => exact h
  | cons v vs ih => exact ih _ (one s v h)

/-- A short of an initial power takes that power at the voltage it comes on at and keeps its conductance at all later voltages. -/
theorem c95_short_initial (s : Short K) (p v : K) (vs : List K) (h1 : s.constP = none) (h2 : s.constI = none) (h3 : s.initP = some p)
    (hp : 0 ≤ p) (hn : p ≠ s.prevP) (hv : dblEps ≤ v * v) :
    v * v * (vs.foldl Short.compute (s.compute v)).cond = p := by
  have he := dblEps_pos (K := K)
  have keep : ∀ (vs : List K) (t : Short K), t.constP = none → t.constI = none → t.initP = some p → t.prevP = p →
      (vs.foldl Short.compute t).cond = t.cond := by
    intro vs
    induction vs with
    | nil => intro t _ _ _ _; rfl
    | cons w vs ih =>
      intro t a b c d
      have e : (t.compute w).cond = t.cond := by
        simp only [Short.compute, Short.next, a, b, c, d, abs_of_nonneg hp, ne_eq, not_true_eq_false, if_false]
      rw [List.foldl_cons, ih (t.compute w) a b c (by simp [Short.compute, c]), e]
  rw [keep vs (s.compute v) h1 h2 h3 (by simp [Short.compute, h3])]
  simp only [Short.compute, Short.next, h1, h2, h3, abs_of_nonneg hp, ne_eq, hn, not_false_eq_true, if_true, ofPower, max_eq_left hv]
  exact mul_div_cancel₀ _ (ne_of_gt (lt_of_lt_of_le he hv))

/-- The same for an initial current. -/
theorem c95_short_initial_current (s : Short K) (i v : K) (vs : List K) (h1 : s.constP = none) (h2 : s.constI = none)
    (h0 : s.initP = none) (h3 : s.initI = some i) (hi : 0 ≤ i) (hn : i ≠ s.prevI) (hv : dblEps ≤ |v|) :
    |v| * (vs.foldl Short.compute (s.compute v)).cond = i := by
  have he := dblEps_pos (K := K)
  have keep : ∀ (vs : List K) (t : Short K), t.constP = none → t.constI = none → t.initP = none → t.initI = some i → t.prevI = i →
      (vs.foldl Short.compute t).cond = t.cond := by
    intro vs
    induction vs with
    | nil => intro t _ _ _ _ _; rfl
    | cons w vs ih =>
      intro t a b z c d
      have e : (t.compute w).cond = t.cond := by
        simp only [Short.compute, Short.next, a, b, z, c, d, abs_of_nonneg hi, ne_eq, not_true_eq_false, if_false]
      rw [List.foldl_cons, ih (t.compute w) a b z c (by simp [Short.compute, c]), e]
  rw [keep vs (s.compute v) h1 h2 h0 h3 (by simp [Short.compute, h3])]
  simp only [Short.compute, Short.next, h1, h2, h0, h3, abs_of_nonneg hi, ne_eq, hn, not_false_eq_true, if_true, ofCurrent, max_eq_left hv]
  exact mul_div_cancel₀ _ (ne_of_gt (lt_of_lt_of_le he hv))

/-- A negative initial power is taken anew at every voltage: it is a constant one. -/
theorem c95_short_negative (s : Short K) (p v : K) (vs : List K) (h1 : s.constP = none) (h2 : s.constI = none) (h3 : s.initP = some p)
    (hp : p < 0) (h0 : s.prevP = p) (hv : dblEps ≤ v * v) :
    v * v * ((vs.foldl Short.compute s).compute v).cond = -p := by
  have he := dblEps_pos (K := K)
  have keep : ∀ (vs : List K) (t : Short K), t.constP = none → t.constI = none → t.initP = some p → t.prevP = p →
      (vs.foldl Short.compute t).constP = none ∧ (vs.foldl Short.compute t).constI = none
        ∧ (vs.foldl Short.compute t).initP = some p ∧ (vs.foldl Short.compute t).prevP = p := by
    intro vs
    induction vs with
    | nil => intro t a b c d; exact ⟨a, b, c, d⟩
    | cons w vs ih =>
      intro t a b c d
      exact ih (t.compute w) a b c (by simp [Short.compute, c])
  obtain ⟨a, b, c, d⟩ := keep vs s h1 h2 h3 h0
  have hne : -p ≠ p := by
    intro h
    have : 0 < -p := by linarith
    linarith
  simp only [Short.compute, Short.next, a, b, c, d, abs_of_neg hp, ne_eq, hne, not_false_eq_true, if_true, ofPower, max_eq_left hv]
  exact mul_div_cancel₀ _ (ne_of_gt (lt_of_lt_of_le he hv))

/-! ## The series of switch and loads -/

/-- The conductance the loads and the short put behind the switch after an update. -/
def c95Behind (l : Link K) : K :=
  loadsG l.loads + (if l.sw.closed && !l.over.isSome then l.short.cond else 0)

private theorem loadsG_pos (ls : List (UserLoad.Load K)) : 0 < loadsG ls := by
  have he := dblEps_pos (K := K)
  unfold loadsG eps100
  have : 0 ≤ (ls.map fun x : UserLoad.Load K => 1 / max dblEps x.res).sum := by
    apply List.sum_nonneg
    intro y hy
    obtain ⟨x, -, rfl⟩ := List.mem_map.mp hy
    exact div_nonneg zero_le_one (he.le.trans (le_max_left _ _))
  linarith

/-- With loads behind a closed switch the resistances of switch and loads add. -/
theorem c95_series (l : Link K) (v0 : K) (gr : Bool) (h : (updateState v0 gr l).sw.closed = true) (hl : l.loads ≠ []) (hs : 0 ≤ l.short.cond) :
    let m := updateState v0 gr l
    0 < c95Behind m ∧ 0 < m.cond ∧ m.cond * (1 / m.sw.conductance + 1 / c95Behind m) = 1
      ∧ m.cond < m.sw.conductance ∧ m.cond < c95Behind m := by
  intro m
  have hl' : (l.loads.map fun x => (UserLoad.step m.loadsV x).1) ≠ [] := by simpa using hl
  have hb : 0 < c95Behind m := by
    have h1 := loadsG_pos m.loads
    have h2 : 0 ≤ m.short.cond := by
      show 0 ≤ (if _ then l.short.compute _ else l.short).cond
      split
      · exact c95_short_nonneg l.short [_] hs
      · exact hs
    unfold c95Behind
    split <;> linarith
  have hg : 0 < m.sw.conductance := by
    have hlim : (0 : K) < SwUtil.condLimit := by unfold SwUtil.condLimit; positivity
    unfold SwUtil.Switch.conductance
    rw [if_pos h]
    split
    · rename_i hr; exact one_div_pos.mpr hr
    · exact hlim
  have hc : m.cond = 1 / (1 / m.sw.conductance + 1 / c95Behind m) := by
    show effective gr m.sw (!(m.loads).isEmpty) (c95Behind m) = _
    have : (!(m.loads).isEmpty) = true := by
      cases e : m.loads with
      | nil => exact absurd e hl'
      | cons a b => rfl
    unfold effective
    rw [if_pos h, this, if_pos rfl]
  have hsum : 0 < 1 / m.sw.conductance + 1 / c95Behind m := by positivity
  refine ⟨hb, by rw [hc]; positivity, by rw [hc]; exact one_div_mul_cancel (ne_of_gt hsum), ?_, ?_⟩
  · rw [hc, div_lt_iff₀ hsum]
    have : m.sw.conductance * (1 / m.sw.conductance + 1 / c95Behind m) = 1 + m.sw.conductance / c95Behind m := by
      field_simp
    rw [this]
    have : 0 < m.sw.conductance / c95Behind m := by positivity
    linarith
  · rw [hc, div_lt_iff₀ hsum]
    have : c95Behind m * (1 / m.sw.conductance + 1 / c95Behind m) = c95Behind m / m.sw.conductance + 1 := by
      field_simp
    rw [this]
    have : 0 < c95Behind m / m.sw.conductance := by positivity
    linarith

/-- Ohm's law for a series: the voltage that is left for the loads by the flux of the series carries that flux through them, and the
power splits into that of the loads and the heat of the switch. -/
private theorem series_split (g G c v : K) (hg : 0 < g) (hG : 0 < G) (hc : c * (1 / g + 1 / G) = 1) (hv : 0 < v) :
    0 < v - v * c / g ∧ v - v * c / g < v ∧ (v - v * c / g) * G = v * c
      ∧ v * (v * c) = v * c * (v * c) / g + (v - v * c / g) * (v - v * c / g) * G := by
  have e : c = g * G / (g + G) := by
    have h1 : (g + G) ≠ 0 := ne_of_gt (by linarith)
    have hg' := ne_of_gt hg
    have hG' := ne_of_gt hG
    field_simp at hc ⊢
    linarith
  have h1 : 0 < g + G := by linarith
  have hu : v - v * c / g = v * g / (g + G) := by
    rw [e]; field_simp; ring
  have hcp : 0 < c := by rw [e]; positivity
  refine ⟨by rw [hu]; positivity, ?_, ?_, ?_⟩
  · have : 0 < v * c / g := by positivity
    linarith
  · rw [hu, e]; field_simp
  · rw [hu, e]; field_simp; ring

/-- The pass after a solution: at the potential and the flux of the solution the loads are given the voltage behind the switch, at
which the conductance of the last pass carries exactly that flux. -/
theorem c95_kirchhoff (l : Link K) (v0 v : K) (gr : Bool) (h : (updateState v0 gr l).sw.closed = true) (hl : l.loads ≠ [])
    (hs : 0 ≤ l.short.cond) (ho : l.over = none) (hv : 0 < v)
    (hc : (SwUtil.updateState true (updateState v0 gr l).sw).closed = true)
    (hsame : (SwUtil.updateState true (updateState v0 gr l).sw).conductance = (updateState v0 gr l).sw.conductance) :
    let m := updateState v0 gr l
    let u := (updateState v gr { m with flux := v * m.cond }).loadsV
    0 < u ∧ u < v ∧ u = v - v * m.cond / m.sw.conductance ∧ u * c95Behind m = v * m.cond
      ∧ v * (v * m.cond) = v * m.cond * (v * m.cond) / m.sw.conductance + u * u * c95Behind m := by
  intro m u
  obtain ⟨h1, h2, h3, h4, h5⟩ := c95_series l v0 gr h hl hs
  have hg : 0 < m.sw.conductance := lt_trans h2 h4
  obtain ⟨s1, s2, s3, s4⟩ := series_split m.sw.conductance (c95Behind m) m.cond v hg h1 h3 hv
  have hml : m.loads ≠ [] := by
    show (l.loads.map _) ≠ []
    simpa using hl
  have hu : u = v - v * m.cond / m.sw.conductance := by
    have hmo : m.over = none := ho
    have e : ({ m.sw with cmd := m.sw.cmd && !m.over.isSome } : SwUtil.Switch K) = m.sw := by
      rw [hmo]; simp
    show voltage v (SwUtil.updateState true { m.sw with cmd := m.sw.cmd && !m.over.isSome }) { m with flux := v * m.cond } = _
    rw [e]
    unfold voltage
    simp only [hmo]
    rw [if_pos ⟨hml, hc, (mul_pos hv h2).le⟩, hsame]
    exact max_eq_right s1.le
  rw [hu]
  exact ⟨s1, s2, rfl, s3, s4⟩

/-- An open switch without override takes nothing and gives its loads no voltage. -/
theorem c95_open (l : Link K) (v0 : K) (gr : Bool) (h : (updateState v0 gr l).sw.closed = false) (ho : l.over = none) :
    (updateState v0 gr l).cond = 0 ∧ (updateState v0 gr l).loadsV = 0
      ∧ (updateState v0 gr l).loads = l.loads.map (fun x => (UserLoad.step 0 x).1) ∧ system (updateState v0 gr l) = 0 := by
  have hu : (updateState v0 gr l).loadsV = 0 := by
    show voltage v0 (updateState v0 gr l).sw l = 0
    unfold voltage
    simp only [ho]
    rw [if_neg (by rw [h]; simp)]
  have hc : (updateState v0 gr l).cond = 0 := by
    show effective gr (updateState v0 gr l).sw _ _ = 0
    unfold effective
    rw [if_neg (by rw [h]; decide)]
  refine ⟨hc, hu, ?_, ?_⟩
  · show l.loads.map (fun x => (UserLoad.step (updateState v0 gr l).loadsV x).1) = _
    rw [hu]
  · have hl : (0 : K) ≤ SwUtil.condLimit := by unfold SwUtil.condLimit; positivity
    unfold system
    rw [hc]
    cases (updateState v0 gr l).block <;> simp [Interp.limitRange, hl]

/-- A closed switch without loads has its own conductance, and next to none with its other end on the ground. -/
theorem c95_no_loads (l : Link K) (v0 : K) (gr : Bool) (h : (updateState v0 gr l).sw.closed = true) (hl : l.loads = []) :
    (updateState v0 gr l).cond = (if gr then 1 / SwUtil.condLimit else (updateState v0 gr l).sw.conductance) := by
  have e : (updateState v0 gr l).loads = [] := by
    show l.loads.map _ = []
    rw [hl]; rfl
  show effective gr (updateState v0 gr l).sw (!(updateState v0 gr l).loads.isEmpty) _ = _
  unfold effective
  rw [if_pos h, e]
  cases gr
  · simp
  · simp

/-- Without an override the matrix after a step is that of the system conductance and says so when it has changed, if it was that of
a conductance before. -/
theorem c95_matrix (l : Link K) (v0 : K) (gr : Bool) (ho : l.over = none) (h : l.a1 = -l.a0 ∧ l.a2 = -l.a0 ∧ l.a3 = l.a0) :
    let m := step v0 gr l
    let g := system (updateState v0 gr l)
    m.a0 = g ∧ m.a1 = -g ∧ m.a2 = -g ∧ m.a3 = g ∧ m.src1 = 0 ∧ 0 ≤ g ∧ g ≤ SwUtil.condLimit ∧ (m.a0 ≠ l.a0 → m.update = true) := by
  intro m g
  have hl : (0 : K) ≤ SwUtil.condLimit := by unfold SwUtil.condLimit; positivity
  have hg : 0 ≤ g ∧ g ≤ SwUtil.condLimit := ⟨le_max_right _ _, max_le (min_le_right _ _) hl⟩
  have hm : m = { buildBase g (updateState v0 gr l) with src1 := 0 } := by
    show build (updateState v0 gr l) = _
    unfold build
    have : (updateState v0 gr l).over = none := ho
    simp only [this]
    rfl
  obtain ⟨h1, h2, h3⟩ := h
  rw [hm]
  unfold buildBase
  by_cases hz : 0 < |(updateState v0 gr l).a0 - g|
  · rw [if_pos hz]
    exact ⟨rfl, rfl, rfl, rfl, rfl, hg.1, hg.2, fun _ => rfl⟩
  · rw [if_neg hz]
    have e : l.a0 = g := by
      have : |l.a0 - g| = 0 := le_antisymm (not_lt.mp hz) (abs_nonneg _)
      linarith [abs_eq_zero.mp this]
    refine ⟨e, ?_, ?_, ?_, rfl, hg.1, hg.2, fun hne => absurd rfl hne⟩
    · show l.a1 = _
      rw [h1, e]
    · show l.a2 = _
      rw [h2, e]
    · show l.a3 = _
      rw [h3, e]

/-- The power of the loads is what the link takes less the heat of the switch: with the flux of the series it is the loads' voltage
times the flux. -/
theorem c95_power (l : Link K) (v g G c : K) (ho : l.over = none) (hr : l.refV = 0) (hg : 0 < g) (hG : 0 < G) (hc : c * (1 / g + 1 / G) = 1)
    (hv : 0 < v) (hf : l.flux = v * c) (hp : l.sw.power = l.flux * l.flux / g) :
    (computePower v 0 true l).loadsP = (v - l.flux / g) * l.flux
      ∧ (computePower v 0 true l).loadsP = (v - l.flux / g) * (v - l.flux / g) * G
      ∧ (computePower v 0 true l).power = -(v * l.flux) := by
  obtain ⟨-, -, s3, -⟩ := series_split g G c v hg hG hc hv
  rw [← hf] at s3
  unfold computePower
  simp only [ho, hr]
  have e : (if (0 : K) ≠ 0 ∧ 0 < l.loadsV then (- (-l.flux * (v - 0)) - l.sw.power) * (0 / l.loadsV) else - (-l.flux * (v - 0)) - l.sw.power)
      = (v - l.flux / g) * l.flux := by
    rw [if_neg (by simp), hp]
    ring
  refine ⟨e, e.trans ?_, by ring⟩
  rw [mul_assoc, s3]

/-- The confirmation: a fuse that trips is a rejection, and the others are left to the switch; after the first converged step no fuse of
a solution that is not rejected has more than its limit at the voltage of the node. -/
theorem c95_fuses (l : Link K) (v0 v1 : K) (gr : Bool) (h : (confirm v0 v1 gr 1 l).2 ≠ .reject) :
    (∀ x ∈ l.loads, 0 < x.fuseLimit → x.blown = false → v0 / max x.res dblEps ≤ x.fuseLimit)
      ∧ (confirm v0 v1 gr 1 l).1.loads = l.loads := by
  have key : ∀ ls : List (UserLoad.Load K), (UserLoad.updateFuses v0 ls).2 = false →
      (∀ x ∈ ls, 0 < x.fuseLimit → x.blown = false → v0 / max x.res dblEps ≤ x.fuseLimit) ∧ (UserLoad.updateFuses v0 ls).1 = ls := by
    intro ls
    induction ls with
    | nil => intro _; exact ⟨by simp, rfl⟩
    | cons x ls ih =>
      intro hf
      have one : (UserLoad.updateFuse v0 x).2 = false → (0 < x.fuseLimit → x.blown = false → v0 / max x.res dblEps ≤ x.fuseLimit)
          ∧ (UserLoad.updateFuse v0 x).1 = x := by
        unfold UserLoad.updateFuse
        by_cases h1 : 0 < x.fuseLimit ∧ x.blown = false
        · rw [if_pos h1]
          by_cases h2 : x.fuseLimit < v0 / max x.res dblEps
          · rw [if_pos h2]; intro h3; exact absurd h3 (by simp)
          · rw [if_neg h2]; intro _; exact ⟨fun _ _ => not_lt.mp h2, rfl⟩
        · rw [if_neg h1]; intro _; exact ⟨fun a b => absurd ⟨a, b⟩ h1, rfl⟩
      unfold UserLoad.updateFuses at hf ⊢
      simp only at hf ⊢
      by_cases hx : (UserLoad.updateFuse v0 x).2 = true
      · rw [if_pos hx] at hf; exact absurd hf (by simp)
      · have hx' : (UserLoad.updateFuse v0 x).2 = false := by simpa using hx
        rw [if_neg hx] at hf ⊢
        obtain ⟨k1, k2⟩ := ih hf
        obtain ⟨o1, o2⟩ := one hx'
        refine ⟨?_, by rw [o2, k2]⟩
        intro y hy
        rcases List.mem_cons.mp hy with rfl | hy
        · exact o1
        · exact k1 y hy
  have hf : (UserLoad.updateFuses v0 l.loads).2 = false := by
    by_contra hc
    have hc' : (UserLoad.updateFuses v0 l.loads).2 = true := by simpa using hc
    apply h
    simp [confirm, hc']
  obtain ⟨k1, k2⟩ := key l.loads hf
  refine ⟨k1, ?_⟩
  have : (confirm v0 v1 gr 1 l).1.loads = (UserLoad.updateFuses v0 l.loads).1 := by
    have keep : ∀ q : Link K, (computeFlux v0 v1 gr q).loads = q.loads := by
      intro q
      unfold computeFlux
      cases q.over with
      | none => rfl
      | some u => cases gr <;> rfl
    unfold confirm
    simp only [zero_lt_one, if_true, hf, Bool.false_eq_true, if_false, keep]
  rw [this, k2]

/-! ## The override of the voltage -/

private theorem resets_keeps (s : SwUtil.Switch K) :
    (SwUtil.resets s).closed = s.closed ∧ (SwUtil.resets s).cmd = s.cmd ∧ (SwUtil.resets s).failClosed = s.failClosed := by
  unfold SwUtil.resets
  split <;> exact ⟨rfl, rfl, rfl⟩

private theorem build_open (q : Link K) (h1 : q.over = none) (h2 : q.a0 = 0) (h3 : system q = 0) : build q = { q with src1 := 0 } := by
  unfold build
  simp only [h1, buildBase, h2, h3, sub_zero, abs_zero, lt_irrefl, if_false]

/-- While the voltage is overridden the loads are given it, the switch is commanded open, and port 1 is tied to it. -/
theorem c95_override (l : Link K) (v0 u : K) (gr : Bool) (ho : l.over = some u) :
    let m := step v0 gr l
    m.loadsV = u ∧ m.sw.cmd = false ∧ m.a0 = 0 ∧ m.a3 = overG ∧ m.src1 = u * overG
      ∧ (∀ v1, (computeFlux v0 v1 false m).flux = overG * (u - v1))
      ∧ (l.sw.failClosed = false → l.sw.tripped = false → l.sw.waiting = false → m.sw.closed = false) := by
  intro m
  have hm : m = build (updateState v0 gr l) := rfl
  have hov : (updateState v0 gr l).over = some u := ho
  have hsw : m.sw = (updateState v0 gr l).sw ∧ m.loadsV = (updateState v0 gr l).loadsV ∧ m.over = some u := by
    rw [hm]
    unfold build
    simp only [hov]
    split <;> first | exact ⟨rfl, rfl, rfl⟩ | exact ⟨rfl, rfl, hov⟩
  have hadm : m.a0 = 0 ∧ m.a3 = overG ∧ m.src1 = u * overG := by
    rw [hm]
    unfold build
    simp only [hov]
    by_cases h : (updateState v0 gr l).a0 ≠ 0 ∨ (updateState v0 gr l).a3 ≠ overG
    · rw [if_pos h]; exact ⟨rfl, rfl, rfl⟩
    · rw [if_neg h]
      have h1 : (updateState v0 gr l).a0 = 0 := by by_contra hh; exact h (Or.inl hh)
      have h2 : (updateState v0 gr l).a3 = overG := by by_contra hh; exact h (Or.inr hh)
      exact ⟨h1, h2, by simp only [h2]⟩
  have hcmd : m.sw = SwUtil.updateState true { l.sw with cmd := false } := by
    rw [hsw.1]
    show SwUtil.updateState true { l.sw with cmd := l.sw.cmd && !l.over.isSome } = _
    rw [ho]
    simp
  refine ⟨?_, ?_, hadm.1, hadm.2.1, hadm.2.2, ?_, ?_⟩
  · rw [hsw.2.1]
    show voltage v0 _ l = u
    unfold voltage
    simp only [ho]
  · rw [hcmd]
    simp only [SwUtil.updateState, resets_keeps]
    simp only [SwUtil.position, if_true, SwUtil.malfs]
  · intro v1
    unfold computeFlux
    rw [hsw.2.2]
    simp only [Bool.false_eq_true, if_false, hadm.2.1, hadm.2.2]
    ring
  · intro hf ht hw
    rw [hcmd]
    simp only [SwUtil.Switch.tripped, Bool.or_eq_false_iff] at ht
    have : ∀ t : SwUtil.Switch K, (SwUtil.resets t).closed = t.closed := by
      intro t
      unfold SwUtil.resets
      split <;> rfl
    simp only [SwUtil.updateState, this]
    simp [SwUtil.position, SwUtil.malfs, SwUtil.Switch.tripped, hf, ht.1.1, ht.1.2, ht.2, hw]

/-! ## Cases -/

private def sw : SwUtil.Switch ℚ where
  failOpen := false
  failClosed := false
  failRes := false
  percent := 0
  failPos := false
  failPosValue := 0
  failNeg := false
  failNegValue := 0
  ignore := false
  actual := 0
  sensed := 0
  voltageIn := 0
  power := 0
  cmd := true
  closed := true
  pos := false
  neg := false
  ext := false
  waiting := false
  just := false
  reset := false
  priority := 1
  defRes := 1
  res := 1
  prot := true
  defPos := 100
  posLimit := 100
  defNeg := -100
  negLimit := -100
  code := 1

private def lamp : UserLoad.Load ℚ where
  kind := .resistive
  least := 1
  fuseLimit := 15
  normal := 10
  standby := 100
  overI := none
  overP := none
  blow := false
  magic := none
  mode := .on
  blown := false
  voltage := 0
  valid := false
  current := 0
  power := 0
  res := 10

private def noShort : Short ℚ := ⟨none, none, none, none, none, 0, 0, 0⟩

private def link : Link ℚ where
  sw := sw
  short := noShort
  loads := [lamp]
  refV := 0
  over := none
  loadsV := 0
  loadsP := 0
  block := none
  cond := 0
  a0 := 0
  a1 := 0
  a2 := 0
  a3 := 0
  src1 := 0
  update := false
  flux := 0
  power := 0

example : (updateState 110 true link).sw.closed = true ∧ link.loads ≠ [] ∧ link.over = none
    ∧ (SwUtil.updateState true (updateState 110 true link).sw).closed = true
    ∧ (SwUtil.updateState true (updateState 110 true link).sw).conductance = (updateState 110 true link).sw.conductance
    ∧ (UserLoad.step 110 lamp).2 = .ok := by
  refine ⟨by decide +kernel, by simp [link], rfl, by decide +kernel, by decide +kernel, by decide +kernel⟩

example : (dblEps : ℚ) ≤ 10 * 10 ∧ (100 : ℚ) ≠ noShort.prevP
    ∧ ([5, 0, 20].foldl Short.compute (({ noShort with initP := some 100 } : Short ℚ).compute 10)).cond = 1
    ∧ ([5, 0, 20].foldl Short.compute (({ noShort with initI := some 100 } : Short ℚ).compute 10)).cond = 10
    ∧ (({ noShort with constP := some (-50) } : Short ℚ).compute 5).cond = 2
    ∧ (({ noShort with resist := some 4 } : Short ℚ).compute 5).cond = 1 / 4 := by
  decide +kernel

example : ({ link with over := some 28 } : Link ℚ).sw.failClosed = false ∧ link.sw.tripped = false ∧ link.sw.waiting = false
    ∧ (step 0 false ({ link with over := some 28 } : Link ℚ)).loadsV = 28 := by
  decide +kernel

/-- When the link is blocked, the voltage its loads are given is that of the unblocked switch, so they take more current than flows:
for a blockage `b` by `b` times the voltage times their conductance. -/
theorem c95_blockage (v g G c b : K) (hg : 0 < g) (hG : 0 < G) (hc : c * (1 / g + 1 / G) = 1) :
    (v - v * (c * (1 - b)) / g) * G - v * (c * (1 - b)) = b * v * G := by
  have e : c = g * G / (g + G) := by
    have h1 : (g + G) ≠ 0 := ne_of_gt (by linarith)
    have hg' := ne_of_gt hg
    have hG' := ne_of_gt hG
    field_simp at hc ⊢
    linarith
  have h1 : 0 < g + G := by linarith
  rw [e]
  field_simp
  ring

/-- The case in the code: a half blocked link at 110 V. -/
theorem c95_blockage_case :
    let m := step 110 true { link with block := some (1 / 2) }
    let f := computeFlux 110 0 true m
    let n := updateState 110 true f
    f.flux < 5 + 1 / 1000 ∧ n.loadsV > 104 ∧ (n.loads.map fun x => x.current).sum > 10 := by
  decide +kernel

/-- The fuse is checked at the voltage of the node and not of the load: a lamp of 15 ohm behind a switch of 1 ohm carries less than its
limit and its fuse blows. -/
theorem c95_fuse_early :
    let l : Link ℚ := { link with loads := [{ lamp with
      normal := 1
      res := 1 }] }
    let m := computeFlux 20 0 true (step 20 true l)
    let n := updateState 20 true m
    (∀ x ∈ n.loads, x.current < 11 ∧ x.fuseLimit = 15) ∧ (confirm 20 0 true 1 n).2 = .reject
      ∧ (∀ x ∈ (confirm 20 0 true 1 n).1.loads, x.blown = true) := by
  decide +kernel

/-- While the voltage is overridden the fuses are checked at the voltage of the node all the same: a load of 20 A at the override, with a
fuse of 15 A and no voltage at the node, is confirmed. -/
theorem c95_fuse_overridden :
    let l : Link ℚ := { link with over := some 200 }
    let m := step 0 true l
    (∀ x ∈ m.loads, x.current = 20 ∧ x.fuseLimit = 15) ∧ (confirm 0 0 true 1 m).2 = .confirm := by
  decide +kernel

/-- When the override ends the switch stays commanded open, and until it closes the conductance of the override stays in the matrix as one
from port 1 to the ground, with nothing to tell and no flux. -/
theorem c95_override_remains (l : Link K) (v0 v0' v1 u : K) (gr : Bool) (ho : l.over = some u) (hf : l.sw.failClosed = false)
    (ht : l.sw.tripped = false) (hw : l.sw.waiting = false) :
    let m := step v0 gr l
    let n := step v0' gr { m with
      over := none
      update := false }
    n.sw.closed = false ∧ n.a3 = overG ∧ n.a0 = 0 ∧ n.src1 = 0 ∧ n.update = false ∧ (computeFlux v0' v1 gr n).flux = 0 := by
  intro m n
  obtain ⟨-, o2, o3, o4, -, -, o7⟩ := c95_override l v0 u gr ho
  have hc := o7 hf ht hw
  have hres : ∀ t : SwUtil.Switch K, (SwUtil.resets t).closed = t.closed := by
    intro t
    unfold SwUtil.resets
    split <;> rfl
  have hmsw : m.sw.failClosed = false := by
    have e : m.sw = (updateState v0 gr l).sw := by
      show (build (updateState v0 gr l)).sw = _
      unfold build
      have hov : (updateState v0 gr l).over = some u := ho
      simp only [hov]
      split <;> rfl
    rw [e]
    show (SwUtil.updateState true { l.sw with cmd := l.sw.cmd && !l.over.isSome }).failClosed = false
    simp only [SwUtil.updateState, resets_keeps]
    simp only [SwUtil.position, if_true, SwUtil.malfs]
    exact hf
  have hclosed : n.sw.closed = false := by
    have e : n.sw = SwUtil.updateState true { m.sw with cmd := m.sw.cmd && !(none : Option K).isSome } := by
      show (build (updateState v0' gr { m with
        over := none
        update := false })).sw = _
      unfold build
      have hov : (updateState v0' gr { m with
        over := none
        update := false }).over = none := rfl
      simp only [hov, buildBase]
      split <;> rfl
    rw [e]
    simp only [SwUtil.updateState, hres]
    have o2' : m.sw.cmd = false := o2
    have hc' : m.sw.closed = false := hc
    simp [SwUtil.position, SwUtil.malfs, hmsw, o2', hc']
  have hopen := c95_open { m with
    over := none
    update := false } v0' gr (by
      have e : n.sw = (updateState v0' gr { m with
        over := none
        update := false }).sw := by
        show (build (updateState v0' gr { m with
          over := none
          update := false })).sw = _
        unfold build
        have hov : (updateState v0' gr { m with
          over := none
          update := false }).over = none := rfl
        simp only [hov, buildBase]
        split <;> rfl
      rw [← e]; exact hclosed) rfl
  have hn : n = { updateState v0' gr { m with
      over := none
      update := false } with src1 := 0 } := by
    exact build_open _ rfl o3 hopen.2.2.2
  have e0 : n.a0 = 0 := by rw [hn]; exact o3
  refine ⟨hclosed, by rw [hn]; exact o4, e0, by rw [hn], by rw [hn]; rfl, ?_⟩
  have eo : n.over = none := by rw [hn]; rfl
  unfold computeFlux
  simp only [eo, baseFlux, e0]
  split <;> simp

/-- Without loads a short behind the switch takes nothing. -/
theorem c95_short_unloaded (l : Link K) (v0 : K) (gr : Bool) (x y : Short K) (hl : l.loads = []) :
    (updateState v0 gr { l with short := x }).cond = (updateState v0 gr { l with short := y }).cond := by
  have e : ∀ z : Short K, (updateState v0 gr { l with short := z }).loads = [] := by
    intro z
    show l.loads.map _ = []
    rw [hl]; rfl
  have q : ∀ z : Short K, (updateState v0 gr { l with short := z }).cond
      = effective gr (updateState v0 gr { l with short := z }).sw false 0 := by
    intro z
    have k : ∀ (sw : SwUtil.Switch K) (ls : List (UserLoad.Load K)) (g : K), ls = [] →
        effective gr sw (!ls.isEmpty) g = effective gr sw false 0 := by
      intro sw ls g h
      rw [h]
      unfold effective
      simp
    exact k _ _ _ (e z)
  rw [q x, q y]
  rfl

/-- A blockage takes its share of a conductance within the limits, and without one the conductance is all there. -/
theorem c95_blocked (l : Link K) (b : K) (hb : 0 ≤ b ∧ b ≤ 1) (h0 : 0 ≤ l.cond) (h1 : l.cond ≤ SwUtil.condLimit) :
    (l.block = some b → system l = l.cond * (1 - b)) ∧ (l.block = none → system l = l.cond) := by
  have lim : ∀ x : K, 0 ≤ x → x ≤ SwUtil.condLimit → Interp.limitRange 0 x SwUtil.condLimit = x := by
    intro x hx hy
    unfold Interp.limitRange
    rw [min_eq_left hy, max_eq_left hx]
  constructor <;> intro h <;> unfold system <;> rw [h]
  · exact lim _ (mul_nonneg h0 (by linarith [hb.2])) ((mul_le_of_le_one_right h0 (by linarith [hb.1])).trans h1)
  · exact lim _ h0 h1

/-- Under the override of a grounded link the power is that of the loads, and the current carries it at the override voltage. -/
theorem c95_override_power (l : Link K) (v0 v1 u : K) (ho : l.over = some u) (hu : dblEps ≤ u) :
    (computePower v0 v1 true l).loadsP = (l.loads.map fun x => x.power).sum ∧ (computePower v0 v1 true l).power = (computePower v0 v1 true l).loadsP
      ∧ (computePower v0 v1 true l).flux * u = (computePower v0 v1 true l).loadsP := by
  have e : computePower v0 v1 true l = { l with
      loadsP := (l.loads.map fun x => x.power).sum
      power := (l.loads.map fun x => x.power).sum
      flux := (l.loads.map fun x => x.power).sum / max u dblEps } := by
    unfold computePower
    rw [ho]
    rfl
  rw [e]
  refine ⟨rfl, rfl, ?_⟩
  show (l.loads.map fun x => x.power).sum / max u dblEps * u = _
  rw [max_eq_left hu, div_mul_cancel₀ _ (lt_of_lt_of_le dblEps_pos hu).ne']

/-- Fuses are checked with the first converged step only: later steps leave all loads alone. -/
theorem c95_fuses_once (l : Link K) (v0 v1 : K) (gr : Bool) (n : ℕ) (hn : n ≠ 1) : (confirm v0 v1 gr n l).1.loads = l.loads := by
  have hk : ∀ m : Link K, (computeFlux v0 v1 gr m).loads = m.loads := by
    intro m
    unfold computeFlux
    split
    · split <;> rfl
    · rfl
  unfold confirm
  simp only [if_neg hn, Bool.false_eq_true, if_false]
  split
  · exact hk _
  · rfl

end Gunns.Props
