import Verif.Elect.PvRegTrips
import Verif.Props.PvArray

/-!
# C79: the converting regulator of the solar array

The specification is the curve of the array (`PvLines` of C77) and a count of rejected solutions.
-/

set_option linter.unusedSectionVars false

namespace Gunns.Props

open Gunns Gunns.Pv

/-- One solution of the network within a major step: the potential, the count of converged steps and what the sensors do. -/
structure ConvPass where
  v : ℝ
  n : ℕ
  s : Sense ℝ

/-- How many of a sequence of solutions the regulator rejects. -/
noncomputable def convRejections (a : ArrayCurve ℝ) : List ConvPass → RegConv → Option ℕ
  | [], _ => some 0
  | p :: l, r =>
    match r.minor.confirm a p.s p.v p.n with
    | none => none
    | some (res, r') => (convRejections a l r').map fun k => k + if res = .reject then 1 else 0

/-! ## The number of rejections -/

private def rank : RegState → Bool → ℕ
  | .reg, false => 7
  | .off, false => 6
  | .sag, false => 5
  | .short, false => 4
  | .reg, true => 3
  | .off, true => 2
  | .sag, true => 1
  | .short, true => 0

private theorem rank_le (s : RegState) (b : Bool) : rank s b ≤ 7 := by cases s <;> cases b <;> decide

private theorem mode_rank (a : ArrayCurve ℝ) (r : RegConv) (v vin : ℝ) :
    (r.mode a v vin).1 = r.state ∧ (r.mode a v vin).2 = r.latch ∨
      rank (r.mode a v vin).1 (r.mode a v vin).2 < rank r.state r.latch := by
  unfold RegConv.mode
  split_ifs with h1 h2 h3 h4 h5
  · right
    rw [h2.2]
    cases r.state <;> simp [rank]
  · exact Or.inl ⟨rfl, rfl⟩
  · right
    rw [h4, h5]
    decide
  · exact Or.inl ⟨rfl, rfl⟩
  · have := h4
    cases hs : r.state <;> cases r.latch <;> simp_all [rank]
  · cases hs : r.state <;> cases r.latch <;> simp_all [rank]

/-- Off is what blocks it now for the rest of the major step. -/
private noncomputable def blockedNow (a : ArrayCurve ℝ) (r : RegConv) : Bool :=
  !(r.powered && r.enabled) || r.trips.isTripped || decide (a.mpp.power < dblEps)

private noncomputable def left (r : RegConv) : ℕ := if heldAny r.trips = true then 0 else rank r.state r.latch

private theorem held_tripped (t : RegTrips ℝ) (h : heldAny t = true) : t.isTripped = true := by
  unfold heldAny held at h
  unfold RegTrips.isTripped
  simp only [Bool.or_eq_true, Bool.and_eq_true] at h ⊢
  tauto

private theorem blocked_of_now (a : ArrayCurve ℝ) (r : RegConv) (v : ℝ) (h : blockedNow a r = true) : r.blocked a v = true := by
  unfold blockedNow at h
  unfold RegConv.blocked
  simp only [Bool.or_eq_true] at h ⊢
  tauto

private theorem update_facts (a : ArrayCurve ℝ) (r : RegConv) (v : ℝ) (u : Bool × RegConv) (h : r.update a v = some u) :
    u.2.trips = r.trips ∧ u.2.powered = r.powered ∧ u.2.enabled = r.enabled ∧ (u.1 = true ↔ u.2.state ≠ r.state) ∧
      (blockedNow a r = true → u.2.state = .off) ∧
      (blockedNow a r = true ∧ r.state = .off → u.2.state = .off ∧ u.2.latch = r.latch) ∧
      (blockedNow a r = false → (u.2.state = r.state ∧ u.2.latch = r.latch) ∨ rank u.2.state u.2.latch < rank r.state r.latch) := by
  unfold RegConv.update at h
  by_cases hb : r.blocked a v = true
  · rw [if_pos hb] at h
    cases hl : a.loadAtPower r.term 0 false with
    | none => simp [hl] at h
    | some l =>
      simp only [hl, Option.some.injEq] at h
      subst h
      refine ⟨rfl, rfl, rfl, by
        rw [decide_eq_true_iff]
        exact ne_comm, fun _ => rfl, fun _ => ⟨rfl, rfl⟩, ?_⟩
      intro hn
      right
      have : r.state = .reg := by
        by_contra hc
        unfold RegConv.blocked at hb
        unfold blockedNow at hn
        simp only [hc, decide_false, Bool.false_and, Bool.or_false] at hb
        rw [hb] at hn
        exact absurd hn (by decide)
      simp only [this]
      cases r.latch <;> decide
  · rw [if_neg hb] at h
    have hn : blockedNow a r ≠ true := fun e => hb (blocked_of_now a r v e)
    cases hl : a.loadAtPower r.term (v * (-v * r.adm + r.src) / r.eff) (decide (r.state = .short)) with
    | none =>
      simp only [hl] at h
      exact absurd h (by simp)
    | some l =>
      simp only [hl, Option.some.injEq] at h
      subst h
      exact ⟨rfl, rfl, rfl, by simp, fun e => absurd e hn, fun e => absurd e.1 hn, fun _ => mode_rank a r v l.voltage⟩

private theorem confirm_left (a : ArrayCurve ℝ) (r : RegConv) (s : Sense ℝ) (v : ℝ) (n : ℕ) (res : SolRes) (r' : RegConv)
    (h : r.confirm a s v n = some (res, r')) (hi : blockedNow a r = true → r.state = .off) :
    (blockedNow a r' = true → r'.state = .off) ∧
      left r' + armedAll r'.trips + (if res = .reject then 1 else 0) ≤ left r + armedAll r.trips := by
  unfold RegConv.confirm at h
  cases hu : r.update a v with
  | none => simp [hu] at h
  | some u =>
    obtain ⟨f1, f2, f3, f4, f5, f6, f7⟩ := update_facts a r v u hu
    simp only [hu] at h
    have hold : blockedNow a u.2 = blockedNow a r := by
      unfold blockedNow
      rw [f1, f2, f3]
    -- the update alone
    have hup : left u.2 + (if u.1 = true then 1 else 0) ≤ left r := by
      unfold left
      rw [f1]
      cases hn : blockedNow a r with
      | true =>
        obtain ⟨o1, o2⟩ := f6 ⟨hn, hi hn⟩
        have : ¬ u.1 = true := by
          rw [f4, o1, hi hn]
          simp
        rw [if_neg this, o1, o2, hi hn]
        simp
      | false =>
        have hh : ¬ heldAny r.trips = true := by
          intro e
          have := held_tripped _ e
          unfold blockedNow at hn
          rw [this] at hn
          simp at hn
        rw [if_neg hh, if_neg hh]
        rcases f7 hn with o | o
        · have : ¬ u.1 = true := by
            rw [f4]
            exact fun e => e o.1
          rw [if_neg this, o.1, o.2]
          simp
        · split_ifs <;> omega
    have hres : ∀ x : SolRes, x = (if u.1 = true ∧ n > 0 then SolRes.reject else .confirm) →
        (if x = .reject then 1 else 0) ≤ (if u.1 = true then 1 else 0) := by
      intro x hx
      by_cases h1 : u.1 = true
      · rw [if_pos h1]
        split_ifs <;> omega
      · rw [if_neg (fun e => h1 e.1)] at hx
        rw [hx]
        simp
    by_cases hc : n > 0 ∧ u.2.powered = true ∧ u.2.enabled = true
    · rw [if_pos hc] at h
      simp only [Option.some.injEq, Prod.mk.injEq] at h
      obtain ⟨e1, e2⟩ := h
      subst e1 e2
      have hk := checkAll u.2.trips (if u.1 = true ∧ n > 0 then SolRes.reject else .confirm) (s.vin u.2.term.voltage)
        (s.iin u.2.term.current) (s.vout v) (s.iout u.2.flux) n
      generalize u.2.trips.check (if u.1 = true ∧ n > 0 then SolRes.reject else .confirm) (s.vin u.2.term.voltage)
        (s.iin u.2.term.current) (s.vout v) (s.iout u.2.flux) n = c at *
      cases hb : c.2.2 with
      | true =>
        obtain ⟨k1, k2, k3⟩ := hk.1 hb
        refine ⟨fun _ => by simp, ?_⟩
        rw [f1] at k3
        have : left { u.2 with
            trips := c.1
            state := if true = true then .off else u.2.state } = 0 := if_pos k2
        rw [this, if_pos k1]
        show 0 + armedAll c.1 + 1 ≤ _
        omega
      | false =>
        obtain ⟨k1, k2, k3, k4, k5⟩ := hk.2 hb
        constructor
        · intro e
          simp only [Bool.false_eq_true, if_false]
          have : blockedNow a u.2 = true := by
            unfold blockedNow at e ⊢
            simp only [Bool.or_eq_true] at e ⊢
            rcases e with (e | e) | e
            · exact Or.inl (Or.inl e)
            · exact Or.inl (Or.inr (k5 e))
            · exact Or.inr e
          rw [hold] at this
          exact f5 this
        · have el : left { u.2 with
              trips := c.1
              state := if false = true then .off else u.2.state } = left u.2 := by
            unfold left
            simp only [Bool.false_eq_true, if_false]
            rw [k2]
          rw [el]
          show left u.2 + armedAll c.1 + _ ≤ _
          rw [k3, f1]
          have e1 : (if c.2.1 = SolRes.reject then 1 else 0) =
              if (if u.1 = true ∧ n > 0 then SolRes.reject else .confirm) = SolRes.reject then 1 else 0 := by
            by_cases hx : c.2.1 = SolRes.reject
            · rw [if_pos hx, if_pos (k1.1 hx)]
            · rw [if_neg hx, if_neg (fun e => hx (k1.2 e))]
          rw [e1]
          have := hres _ rfl
          omega
    · rw [if_neg hc] at h
      simp only [Option.some.injEq, Prod.mk.injEq] at h
      obtain ⟨e1, e2⟩ := h
      subst e1 e2
      constructor
      · intro e
        rw [hold] at e
        exact f5 e
      · rw [f1]
        have := hres _ rfl
        omega

private theorem rejections_left (a : ArrayCurve ℝ) (l : List ConvPass) (r : RegConv) (k : ℕ) (h : convRejections a l r = some k)
    (hi : blockedNow a r = true → r.state = .off) : k ≤ left r + armedAll r.trips := by
  induction l generalizing r k with
  | nil =>
    simp only [convRejections, Option.some.injEq] at h
    omega
  | cons p l ih =>
    simp only [convRejections] at h
    cases hc : r.minor.confirm a p.s p.v p.n with
    | none => simp [hc] at h
    | some x =>
      obtain ⟨res, r'⟩ := x
      simp only [hc, Option.map_eq_some_iff] at h
      obtain ⟨k', hk, e⟩ := h
      obtain ⟨i1, i2⟩ := confirm_left a r.minor p.s p.v p.n res r' hc hi
      have := ih r' k' hk i1
      have e1 : left r.minor = left r := rfl
      have e2 : armedAll r.minor.trips = armedAll r.trips := rfl
      rw [e1, e2] at i2
      omega

/-- **C79**: whatever the potentials, sensors and counts of converged steps, after a `step` the regulator rejects at most seven
solutions of the major step, and one more for each trip that can still trip. -/
theorem c79_conv_rejections (a : ArrayCurve ℝ) (r0 r : RegConv) (v0 : ℝ) (hs : r0.step a v0 = some r) (l : List ConvPass) (k : ℕ)
    (h : convRejections a l r = some k) : k ≤ 7 + armedAll r.trips := by
  have hi : blockedNow a r = true → r.state = .off := by
    unfold RegConv.step at hs
    simp only at hs
    cases hm : (r0.prepare a).maxOut a with
    | none => simp [hm] at hs
    | some i =>
      simp only [hm] at hs
      cases hu : RegConv.update a { r0.prepare a with
          maxCurrent := i
          latch := false } v0 with
      | none => simp [hu] at hs
      | some u =>
        simp only [hu, Option.some.injEq] at hs
        obtain ⟨f1, f2, f3, -, f5, -, -⟩ := update_facts a _ v0 u hu
        intro e
        subst hs
        refine f5 ?_
        have : blockedNow a u.2.minor = blockedNow a u.2 := rfl
        rw [this] at e
        unfold blockedNow at e ⊢
        rw [f1, f2, f3] at e
        exact e
  have := rejections_left a l r k h hi
  have h7 : left r ≤ 7 := by
    unfold left
    split_ifs
    · omega
    · exact rank_le _ _
  omega

/-- **C79**: at most twelve in all. -/
theorem c79_conv_rejections_twelve (a : ArrayCurve ℝ) (r0 r : RegConv) (v0 : ℝ) (hs : r0.step a v0 = some r) (l : List ConvPass)
    (k : ℕ) (h : convRejections a l r = some k) : k ≤ 12 := by
  have := c79_conv_rejections a r0 r v0 hs l k h
  have h1 : ∀ t : Sw.Trip ℝ, armed t ≤ 1 := by
    intro t
    unfold armed
    split_ifs <;> omega
  have : armedAll r.trips ≤ 5 := by
    unfold armedAll
    have := h1 r.trips.inOv
    have := h1 r.trips.inOc
    have := h1 r.trips.outOv
    have := h1 r.trips.outOc
    have := h1 r.trips.outUv
    omega
  omega

/-! ## What is accepted -/

private theorem load_some (a : ArrayCurve ℝ) (h : ProperArray a) (old : Load ℝ) (p : ℝ) (b : Bool) :
    ∃ l, a.loadAtPower old p b = some l := by
  have ep := dblEps_pos (K := ℝ)
  have vp : 0 < a.cornerV := by linarith [h.v0]
  have hd : 0 < a.voc - a.cornerV := ep.trans h.v1
  have di : 0 < a.isc - a.cornerI := ep.trans h.i1
  unfold ArrayCurve.loadAtPower
  by_cases h1 : p < dblEps
  · exact ⟨_, if_pos h1⟩
  rw [if_neg h1]
  by_cases h2 : p < a.mpp.power
  · rw [if_pos h2]
    cases b
    · simp only [Bool.false_eq_true, if_false]
      rw [if_neg hd.ne']
      split_ifs with h3 h4
      · exact absurd h4 (div_pos h.i0 hd).ne'
      · exact ⟨_, rfl⟩
      · exact ⟨_, rfl⟩
    · simp only [if_true]
      rw [if_neg vp.ne']
      split_ifs with h3 h4
      · exact absurd h4 (div_pos di vp).ne'
      · exact ⟨_, rfl⟩
      · exact ⟨_, rfl⟩
  · exact ⟨_, if_neg h2⟩

/-- **C79**: with an array whose points are in order, no step and no solution of the network leads to a division by zero within
the array. -/
theorem c79_conv_defined (a : ArrayCurve ℝ) (h : ProperArray a) (r : RegConv) (s : Sense ℝ) (v : ℝ) (n : ℕ) :
    (∃ r', r.step a v = some r') ∧ ∃ x, r.confirm a s v n = some x := by
  have up : ∀ q : RegConv, ∃ u, q.update a v = some u := by
    intro q
    unfold RegConv.update
    by_cases hb : q.blocked a v = true
    · obtain ⟨l, hl⟩ := load_some a h q.term 0 false
      rw [if_pos hb, hl]
      exact ⟨_, rfl⟩
    · rw [if_neg hb]
      obtain ⟨l, hl⟩ := load_some a h q.term (v * (-v * q.adm + q.src) / q.eff) (decide (q.state = .short))
      simp only [hl]
      exact ⟨_, rfl⟩
  constructor
  · unfold RegConv.step
    simp only
    have : ∃ i, (r.prepare a).maxOut a = some i := by
      unfold RegConv.maxOut ArrayCurve.predictLoad
      have hd : ¬ (¬ (r.prepare a).vreg / (r.prepare a).limit < a.cornerV ∧ a.cornerV - a.voc = 0) := by
        rintro ⟨-, e⟩
        linarith [h.v1, dblEps_pos (K := ℝ)]
      by_cases h1 : ¬ (dblEps ≤ (r.prepare a).vreg / (r.prepare a).limit ∧ (r.prepare a).vreg / (r.prepare a).limit ≤ a.voc)
      · rw [if_pos h1]
        exact ⟨_, rfl⟩
      · rw [if_neg h1, if_neg hd]
        exact ⟨_, rfl⟩
    obtain ⟨i, hi⟩ := this
    simp only [hi]
    obtain ⟨u, hu⟩ := up { r.prepare a with
      maxCurrent := i
      latch := false }
    simp only [hu]
    exact ⟨_, rfl⟩
  · unfold RegConv.confirm
    obtain ⟨u, hu⟩ := up r
    simp only [hu]
    by_cases hc : n > 0 ∧ u.2.powered = true ∧ u.2.enabled = true
    · rw [if_pos hc]
      exact ⟨_, rfl⟩
    · rw [if_neg hc]
      exact ⟨_, rfl⟩

/-- **C79**: a converged solution that the regulator accepts was computed for the state it is in.  When regulating, the output is
at or below the regulated voltage, the array can be raised above it with the limit of the conversion ratio, and the
power asked of the array is less than its maximum.  When sagging, the array is beyond the corner of its curve.  When
limiting the current, it is not.  Only a regulator that has used its one step up may be below what it could be.  When off, it
gives nothing: because it is not powered, disabled, tripped or dark, or has used its step up. -/
theorem c79_conv_accepted (a : ArrayCurve ℝ) (r r' : RegConv) (s : Sense ℝ) (v : ℝ) (n : ℕ) (hn : 0 < n)
    (h : r.minor.confirm a s v n = some (.confirm, r')) :
    r'.state = r.state ∧ (r'.latch = r.latch) ∧
      (r'.state ≠ .off → r'.flux = r.stateSrc r.state - r.stateAdm r.state * v ∧ r'.outPower = v * r'.flux ∧
        r'.inPower = r'.outPower / r.eff ∧ r.powered = true ∧ r.enabled = true ∧ dblEps ≤ a.mpp.power) ∧
      (r'.state = .reg → v ≤ r.vreg ∧ r.vreg < r'.term.voltage * r.limit) ∧
      (r'.state = .sag → (a.cornerV < r'.term.voltage ∧ r'.term.voltage * r.limit ≤ r.vreg ∧ v ≤ r.vreg) ∨ r.latch = true) ∧
      (r'.state = .short → (r'.term.voltage ≤ a.cornerV ∧ r'.term.voltage * r.limit ≤ r.vreg ∧ v ≤ r.vreg) ∨ r.latch = true) ∧
      (r'.state = .off → (r'.flux = 0 ∧ r'.outPower = 0 ∧ r'.inPower = 0 ∧
        (r.powered = false ∨ r.enabled = false ∨ r.trips.isTripped = true ∨ a.mpp.power < dblEps)) ∨ r.latch = true) := by
  unfold RegConv.confirm at h
  cases hu : r.minor.update a v with
  | none => simp [hu] at h
  | some u =>
    simp only [hu] at h
    -- the update did not change the state
    have key : u.1 = false ∧ r'.state = u.2.state ∧ r'.latch = u.2.latch ∧ r'.flux = u.2.flux ∧ r'.outPower = u.2.outPower ∧
        r'.inPower = u.2.inPower ∧ r'.term = u.2.term := by
      by_cases hc : n > 0 ∧ u.2.powered = true ∧ u.2.enabled = true
      · rw [if_pos hc] at h
        simp only [Option.some.injEq, Prod.mk.injEq] at h
        obtain ⟨e1, e2⟩ := h
        have hk := checkAll u.2.trips (if u.1 = true ∧ n > 0 then SolRes.reject else .confirm) (s.vin u.2.term.voltage)
          (s.iin u.2.term.current) (s.vout v) (s.iout u.2.flux) n
        generalize u.2.trips.check (if u.1 = true ∧ n > 0 then SolRes.reject else .confirm) (s.vin u.2.term.voltage)
          (s.iin u.2.term.current) (s.vout v) (s.iout u.2.flux) n = c at *
        cases hb : c.2.2 with
        | true =>
          rw [(hk.1 hb).1] at e1
          exact absurd e1 (by decide)
        | false =>
          obtain ⟨-, -, -, k4, -⟩ := hk.2 hb
          have e3 := k4 e1
          subst e2
          refine ⟨?_, by simp [hb], rfl, rfl, rfl, rfl, rfl⟩
          by_contra h1
          rw [if_pos ⟨by simpa using h1, hn⟩] at e3
          exact absurd e3 (by decide)
      · rw [if_neg hc] at h
        simp only [Option.some.injEq, Prod.mk.injEq] at h
        obtain ⟨e1, e2⟩ := h
        subst e2
        refine ⟨?_, rfl, rfl, rfl, rfl, rfl, rfl⟩
        by_contra h1
        rw [if_pos ⟨by simpa using h1, hn⟩] at e1
        exact absurd e1 (by decide)
    obtain ⟨k0, k1, k2, k3, k4, k5, k6⟩ := key
    rw [k1, k2, k3, k4, k5, k6]
    have hs : u.2.state = r.state := by
      have := (update_facts a r.minor v u hu).2.2.2.1
      rw [k0] at this
      by_contra hc
      exact absurd (this.2 hc) (by decide)
    unfold RegConv.update at hu
    by_cases hb : r.minor.blocked a v = true
    · rw [if_pos hb] at hu
      cases hl : a.loadAtPower r.minor.term 0 false with
      | none => simp [hl] at hu
      | some l =>
        simp only [hl, Option.some.injEq] at hu
        subst hu
        have ho : r.state = .off := hs.symm
        refine ⟨hs, rfl, fun e => absurd rfl e, fun e => by simp at e, fun e => by simp at e, fun e => by simp at e,
          fun _ => Or.inl ⟨rfl, rfl, rfl, ?_⟩⟩
        unfold RegConv.blocked at hb
        have e1 : r.minor.state = .off := ho
        simp only [e1, Bool.or_eq_true, Bool.and_eq_true, decide_eq_true_eq, reduceCtorEq, false_and, or_false, Bool.not_eq_true',
          Bool.and_eq_false_iff] at hb
        rcases hb with (hb | hb) | hb
        · rcases hb with hb | hb
          · exact Or.inl hb
          · exact Or.inr (Or.inl hb)
        · exact Or.inr (Or.inr (Or.inl hb))
        · exact Or.inr (Or.inr (Or.inr hb))
    · rw [if_neg hb] at hu
      cases hl : a.loadAtPower r.minor.term (v * (-v * r.minor.adm + r.minor.src) / r.minor.eff) (decide (r.minor.state = .short)) with
      | none =>
        simp only [hl] at hu
        exact absurd hu (by simp)
      | some l =>
        simp only [hl, Option.some.injEq] at hu
        subst hu
        simp only at hs k0 ⊢
        unfold RegConv.blocked at hb
        simp only [Bool.or_eq_true, Bool.and_eq_true, decide_eq_true_eq, not_or, not_and, Bool.not_eq_true', not_lt,
          Bool.not_eq_false] at hb
        obtain ⟨⟨⟨b1, b2⟩, b3⟩, b4⟩ := hb
        have b3' : r.state = .reg → v ≤ r.vreg := fun e => b3 e
        have hm : (r.minor.mode a v l.voltage).2 = r.latch := by
          rcases mode_rank a r.minor v l.voltage with o | o
          · exact o.2
          · have hs' : (r.minor.mode a v l.voltage).1 = r.state := hs
            rw [hs'] at o
            have o' : rank r.state (r.minor.mode a v l.voltage).2 < rank r.state r.latch := o
            unfold RegConv.mode at hs' o' ⊢
            split_ifs at hs' o' ⊢ with c1 c2 c3 c4 c5
            · exact absurd hs'.symm c2.1
            · rfl
            · have : r.state = .short := c4
              rw [this] at hs'
              exact absurd hs' (by decide)
            · rfl
            · rfl
            · rfl
        refine ⟨hs, hm, fun _ => ⟨by
            show -v * r.stateAdm r.state + r.stateSrc r.state = _
            ring, trivial, rfl, b1.1, b1.2, b4⟩, ?_, ?_, ?_, ?_⟩
        · intro e
          rw [hs] at e
          refine ⟨b3' e, ?_⟩
          have hs' : (r.minor.mode a v l.voltage).1 = r.state := hs
          unfold RegConv.mode at hs'
          have m1 : r.minor.state = .reg := e
          by_contra hc
          rw [if_neg (by
            rintro (c | ⟨-, c⟩)
            · exact hc c
            · rw [m1] at c
              exact absurd c (by decide))] at hs'
          rw [e, m1] at hs'
          by_cases c1 : l.voltage > a.cornerV ∨ (v > r.minor.vreg ∧ RegState.reg = .short)
          · rw [if_pos c1, if_neg (by decide)] at hs'
            exact absurd hs' (by simp)
          · rw [if_neg c1] at hs'
            exact absurd hs' (by simp)
        · intro e
          rw [hs] at e
          by_cases hl' : r.latch = true
          · exact Or.inr hl'
          left
          have m1 : r.minor.state = .sag := e
          have m2 : r.minor.latch = false := Bool.eq_false_iff.2 hl'
          have hs' : (r.minor.mode a v l.voltage).1 = r.state := hs
          unfold RegConv.mode at hs'
          rw [e, m1, m2] at hs'
          by_cases c1 : l.voltage * r.minor.limit > r.minor.vreg ∨ (v > r.minor.vreg ∧ RegState.sag = .sag)
          · rw [if_pos c1] at hs'
            simp at hs'
          · rw [if_neg c1] at hs'
            rw [not_or, not_and] at c1
            by_cases c2 : l.voltage > a.cornerV ∨ (v > r.minor.vreg ∧ RegState.sag = .short)
            · refine ⟨?_, not_lt.1 c1.1, not_lt.1 (fun e' => c1.2 e' rfl)⟩
              rcases c2 with c2 | c2
              · exact c2
              · exact absurd c2.2 (by decide)
            · rw [if_neg c2] at hs'
              simp at hs'
        · intro e
          rw [hs] at e
          by_cases hl' : r.latch = true
          · exact Or.inr hl'
          left
          have m1 : r.minor.state = .short := e
          have m2 : r.minor.latch = false := Bool.eq_false_iff.2 hl'
          have hs' : (r.minor.mode a v l.voltage).1 = r.state := hs
          unfold RegConv.mode at hs'
          rw [e, m1, m2] at hs'
          by_cases c1 : l.voltage * r.minor.limit > r.minor.vreg ∨ (v > r.minor.vreg ∧ RegState.short = .sag)
          · rw [if_pos c1] at hs'
            simp at hs'
          · rw [if_neg c1] at hs'
            rw [not_or, not_and] at c1
            by_cases c2 : l.voltage > a.cornerV ∨ (v > r.minor.vreg ∧ RegState.short = .short)
            · rw [if_pos c2] at hs'
              simp at hs'
            · rw [not_or, not_and] at c2
              exact ⟨not_lt.1 c2.1, not_lt.1 c1.1, not_lt.1 (fun e' => c2.2 e' rfl)⟩
        · intro e
          rw [hs] at e
          right
          by_contra hl'
          have m1 : r.minor.state = .off := e
          have m2 : r.minor.latch = false := Bool.eq_false_iff.2 hl'
          have hs' : (r.minor.mode a v l.voltage).1 = r.state := hs
          unfold RegConv.mode at hs'
          rw [e, m1, m2] at hs'
          split_ifs at hs' with c1 c2 c3 c4 <;> simp_all

/-! ## Curves and power -/

/-- **C79**: the output curve of a sagging or limiting regulator is the array's, with the voltage multiplied and the current
divided by the limit of the conversion ratio, and with the current at the corner reduced by the efficiency. -/
theorem c79_conv_curve (a : ArrayCurve ℝ) (h : ProperArray a) (r : RegConv) (hl : 1 ≤ r.limit) (he : 0 < r.eff)
    (hmin : minAdm * (r.limit * r.limit) * (a.voc - a.cornerV) ≤ a.cornerI * r.eff)
    (hmax : a.cornerI * r.eff ≤ maxAdm * (r.limit * r.limit) * (a.voc - a.cornerV))
    (hmin2 : minAdm * (r.limit * r.limit) * a.cornerV ≤ a.isc - a.cornerI * r.eff)
    (hmax2 : a.isc - a.cornerI * r.eff ≤ maxAdm * (r.limit * r.limit) * a.cornerV) (v : ℝ) :
    (a.cornerV ≤ v / r.limit →
      PvLines a.isc a.cornerV (a.cornerI * r.eff) a.voc (v / r.limit) ((r.srcOf a .sag - r.admOf a .sag * v) * r.limit)) ∧
    (v / r.limit ≤ a.cornerV →
      PvLines a.isc a.cornerV (a.cornerI * r.eff) a.voc (v / r.limit) ((r.srcOf a .short - r.admOf a .short * v) * r.limit)) := by
  have ep := dblEps_pos (K := ℝ)
  have vp : 0 < a.cornerV := by linarith [h.v0]
  have hd : 0 < a.voc - a.cornerV := ep.trans h.v1
  have lp : 0 < r.limit := by linarith
  obtain ⟨x, hx⟩ : ∃ x, x = v / r.limit := ⟨_, rfl⟩
  have hv : v = x * r.limit := by
    rw [hx]
    field_simp
  rw [← hx, hv]
  have e1 : max (a.voc * r.limit - a.cornerV * r.limit) dblEps = (a.voc - a.cornerV) * r.limit := by
    rw [max_eq_left]
    · ring
    · nlinarith [h.v1]
  have e2 : max (a.cornerV * r.limit) dblEps = a.cornerV * r.limit := max_eq_left (by nlinarith [h.v0])
  have hA : r.admOf a .sag * ((a.voc - a.cornerV) * (r.limit * r.limit)) = a.cornerI * r.eff := by
    have p : 0 < (a.voc - a.cornerV) * (r.limit * r.limit) := by positivity
    have e : a.cornerI * r.eff / r.limit / ((a.voc - a.cornerV) * r.limit) = a.cornerI * r.eff / ((a.voc - a.cornerV) * (r.limit * r.limit)) := by
      field_simp
    unfold RegConv.admOf
    simp only
    rw [e1, e, max_eq_right ((le_div_iff₀ p).2 (by linarith)), min_eq_right ((div_le_iff₀ p).2 (by linarith)), div_mul_cancel₀ _ p.ne']
  have hB : r.admOf a .short * (a.cornerV * (r.limit * r.limit)) = a.isc - a.cornerI * r.eff := by
    have p : 0 < a.cornerV * (r.limit * r.limit) := by positivity
    have e : (a.isc / r.limit - a.cornerI * r.eff / r.limit) / (a.cornerV * r.limit) =
        (a.isc - a.cornerI * r.eff) / (a.cornerV * (r.limit * r.limit)) := by
      field_simp
    unfold RegConv.admOf
    simp only
    rw [e2, e, max_eq_right ((le_div_iff₀ p).2 (by linarith)), min_eq_right ((div_le_iff₀ p).2 (by linarith)), div_mul_cancel₀ _ p.ne']
  constructor
  · intro hc
    have f : (r.srcOf a .sag - r.admOf a .sag * (x * r.limit)) * r.limit * (a.voc - a.cornerV) = a.cornerI * r.eff * (a.voc - x) := by
      have : r.srcOf a .sag = a.voc * r.limit * r.admOf a .sag := rfl
      rw [this, ← hA]
      ring
    refine ⟨fun hc' => ?_, fun _ => f⟩
    have : x = a.cornerV := le_antisymm hc' hc
    rw [this] at f ⊢
    have := mul_right_cancel₀ hd.ne' f
    rw [this]
    ring
  · intro hc
    have f : (r.srcOf a .short - r.admOf a .short * (x * r.limit)) * r.limit * a.cornerV =
        a.isc * (a.cornerV - x) + a.cornerI * r.eff * x := by
      have : r.srcOf a .short = a.isc / r.limit := rfl
      rw [this]
      have e : (a.isc / r.limit - r.admOf a .short * (x * r.limit)) * r.limit * a.cornerV =
          a.isc * a.cornerV - r.admOf a .short * (a.cornerV * (r.limit * r.limit)) * x := by
        field_simp
      rw [e, hB]
      ring
    refine ⟨fun _ => f, fun hc' => ?_⟩
    have : x = a.cornerV := le_antisymm hc hc'
    rw [this] at f ⊢
    have f' : (r.srcOf a .short - r.admOf a .short * (a.cornerV * r.limit)) * r.limit * a.cornerV = a.cornerI * r.eff * a.cornerV := by
      rw [f]
      ring
    rw [mul_right_cancel₀ vp.ne' f']

/-- **C79**: a sagging regulator loads the array at its own output voltage over the limit of the ratio, on the array's curve: the
power taken is what that point of the curve gives. -/
theorem c79_conv_sag (strings : List (StringCurve ℝ)) (a : ArrayCurve ℝ) (ha : a = updateArray strings) (h : ProperArray a)
    (h2 : a.voc ≤ 2 * a.cornerV) (r : RegConv) (hl : 1 ≤ r.limit) (he : 0 < r.eff) (v : ℝ) (hs : r.state = .sag)
    (hb : r.blocked a v = false) (hv : a.cornerV < v / r.limit) (hv1 : v / r.limit < a.voc)
    (hf : PvLines a.isc a.cornerV (a.cornerI * r.eff) a.voc (v / r.limit) ((r.src - r.adm * v) * r.limit))
    (hp : dblEps * r.eff ≤ v * (r.src - r.adm * v)) :
    ∃ u, r.update a v = some u ∧ u.2.term.voltage = v / r.limit ∧ u.2.term.power = u.2.inPower ∧ u.2.outPower = u.2.inPower * r.eff ∧
      PvLines a.isc a.cornerV a.cornerI a.voc u.2.term.voltage u.2.term.current ∧
      u.2.term.voltage * u.2.term.current = u.2.inPower ∧ u.2.outPower = v * u.2.flux := by
  have ep := dblEps_pos (K := ℝ)
  have vp : 0 < a.cornerV := by linarith [h.v0]
  have hd : 0 < a.voc - a.cornerV := ep.trans h.v1
  have lp : 0 < r.limit := by linarith
  obtain ⟨x, hx⟩ : ∃ x, x = v / r.limit := ⟨_, rfl⟩
  have hvx : v = x * r.limit := by
    rw [hx]
    field_simp
  rw [← hx] at hv hv1 hf ⊢
  obtain ⟨fl, hfl⟩ : ∃ fl, fl = r.src - r.adm * v := ⟨_, rfl⟩
  have e0 : -v * r.adm + r.src = fl := by rw [hfl]; ring
  rw [← hfl] at hf hp
  have f := hf.2 hv.le
  -- the input power is that of the array at x
  have hpin : v * fl / r.eff * (a.voc - a.cornerV) = x * (a.cornerI * (a.voc - x)) := by
    have : v * fl / r.eff * (a.voc - a.cornerV) = x * (fl * r.limit * (a.voc - a.cornerV)) / r.eff := by
      rw [hvx]
      ring
    rw [this, f]
    field_simp
  obtain ⟨p, hpe⟩ : ∃ p, p = v * fl / r.eff := ⟨_, rfl⟩
  rw [← hpe] at hpin
  have hp0 : dblEps ≤ p := by
    rw [hpe, le_div_iff₀ he]
    exact hp
  have hlt : p < a.cornerV * a.cornerI := by
    have : p * (a.voc - a.cornerV) < a.cornerV * a.cornerI * (a.voc - a.cornerV) := by
      rw [hpin]
      have : 0 < a.cornerI * ((x - a.cornerV) * (x + a.cornerV - a.voc)) := mul_pos h.i0 (mul_pos (by linarith) (by linarith))
      nlinarith
    exact lt_of_mul_lt_mul_right this hd.le
  have hmp : a.cornerV * a.cornerI ≤ a.mpp.power :=
    (c78_mpp strings a ha h).2.2.2.2.2 a.cornerV a.cornerI le_rfl ⟨fun _ => by ring, fun _ => rfl⟩
  obtain ⟨l, l1, l2, l3, l4, l5, l6, l7⟩ := c78_load_power_open a h r.term p hp0 (hlt.trans_le hmp) hlt
  have lx : l.voltage = x := by
    have g := l7.2 l5.le
    have e : l.voltage * (a.cornerI * (a.voc - l.voltage)) = x * (a.cornerI * (a.voc - x)) := by
      rw [← hpin, ← g, ← l3]
      ring
    have : a.cornerI * ((x - l.voltage) * (a.voc - x - l.voltage)) = 0 := by linear_combination -e
    rcases mul_eq_zero.1 this with c | c
    · exact absurd c h.i0.ne'
    · rcases mul_eq_zero.1 c with c | c
      · linarith
      · linarith
  have hb' : ¬ r.blocked a v = true := by rw [hb]; decide
  have hsh : decide (r.state = .short) = false := by
    rw [hs]
    decide
  have hu : r.update a v = some (decide ((r.mode a v l.voltage).1 ≠ r.state), { r with
        flux := fl
        outPower := v * fl
        inPower := p
        term := l
        state := (r.mode a v l.voltage).1
        latch := (r.mode a v l.voltage).2 }) := by
    unfold RegConv.update
    rw [if_neg hb']
    simp only [e0, ← hpe, hsh, l1]
  refine ⟨_, hu, lx, l2, ?_, l7, l3, rfl⟩
  show v * fl = p * r.eff
  rw [hpe]
  field_simp

/-- **C79**: with an efficiency of one the same holds for the curve of a limiting regulator, so that the power it asks for is never
more than the maximum of the array. -/
theorem c79_conv_short_lossless (strings : List (StringCurve ℝ)) (a : ArrayCurve ℝ) (ha : a = updateArray strings) (h : ProperArray a)
    (r : RegConv) (hl : 1 ≤ r.limit) (he : r.eff = 1) (v : ℝ) (hv : v / r.limit ≤ a.cornerV)
    (hf : PvLines a.isc a.cornerV (a.cornerI * r.eff) a.voc (v / r.limit) ((r.src - r.adm * v) * r.limit)) :
    v * (r.src - r.adm * v) / r.eff ≤ a.mpp.power := by
  have lp : 0 < r.limit := by linarith
  rw [he, mul_one] at hf
  have := (c78_mpp strings a ha h).2.2.2.2.2 _ _ hv hf
  rw [he, div_one]
  calc v * (r.src - r.adm * v) = v / r.limit * ((r.src - r.adm * v) * r.limit) := by field_simp
    _ ≤ _ := this

/-- **C79**: the waste heat is what the array gives less what the circuit gets; it is the lost part of the input and not negative
when power goes out. -/
theorem c79_conv_waste (a : ArrayCurve ℝ) (r : RegConv) (he : 0 < r.eff) (he1 : r.eff ≤ 1) (v : ℝ) (u : Bool × RegConv)
    (h : r.update a v = some u) :
    u.2.flows.waste = u.2.inPower - u.2.outPower ∧ u.2.flows.power = -u.2.flows.waste ∧ u.2.flows.waste = (1 - r.eff) * u.2.inPower ∧
      (0 ≤ u.2.outPower → 0 ≤ u.2.flows.waste) := by
  have key : u.2.outPower = r.eff * u.2.inPower := by
    unfold RegConv.update at h
    by_cases hb : r.blocked a v = true
    · rw [if_pos hb] at h
      cases hl : a.loadAtPower r.term 0 false with
      | none => simp [hl] at h
      | some l =>
        simp only [hl, Option.some.injEq] at h
        subst h
        simp
    · rw [if_neg hb] at h
      cases hl : a.loadAtPower r.term (v * (-v * r.adm + r.src) / r.eff) (decide (r.state = .short)) with
      | none =>
        simp only [hl] at h
        exact absurd h (by simp)
      | some l =>
        simp only [hl, Option.some.injEq] at h
        subst h
        show v * (-v * r.adm + r.src) = r.eff * (v * (-v * r.adm + r.src) / r.eff)
        field_simp
  have e : u.2.flows.waste = u.2.inPower - u.2.outPower := by
    unfold RegConv.flows
    ring
  have ew : u.2.flows.waste = (1 - r.eff) * u.2.inPower := by
    rw [e, key]
    ring
  refine ⟨e, by rw [e]; unfold RegConv.flows; ring, ew, fun h0 => ?_⟩
  rw [ew]
  have : 0 ≤ u.2.inPower := by
    rw [key] at h0
    exact nonneg_of_mul_nonneg_right h0 he
  exact mul_nonneg (by linarith) this

/-- **C79**: the maximum current is that of the array at the regulated voltage over the limit of the ratio, times the efficiency
and over the limit. -/
theorem c79_conv_max_current (a : ArrayCurve ℝ) (h : ProperArray a) (r : RegConv) (hl : 1 ≤ r.limit) (i : ℝ)
    (h0 : dblEps ≤ r.vreg / r.limit) (h1 : r.vreg / r.limit ≤ a.voc) (hi : dblEps ≤ i)
    (hc : PvLines a.isc a.cornerV a.cornerI a.voc (r.vreg / r.limit) i) : r.maxOut a = some (i * r.eff / r.limit) := by
  have lp : 0 < r.limit := by linarith
  have xp : 0 < r.vreg / r.limit := dblEps_pos.trans_le h0
  unfold RegConv.maxOut
  rw [c78_predict_load a h _ i h0 h1 hi hc]
  have vr : 0 < r.vreg := (div_pos_iff_of_pos_right lp).1 xp
  simp only [Option.some.injEq]
  field_simp

/-! ## A concrete regulator -/

private noncomputable def oneString : List (StringCurve ℝ) := [⟨10, 120, ⟨9 / 100, 9, 900, 100⟩, fun _ => 9⟩]

private theorem one_array : (updateArray oneString).isc = 10 ∧ (updateArray oneString).voc = 120 ∧ (updateArray oneString).cornerV = 100 ∧
    (updateArray oneString).cornerI = 9 ∧ (updateArray oneString).mpp.power = 900 := by
  have ep := dblEps_pos (K := ℝ)
  have e1 := dblEps_lt_one (K := ℝ)
  have hs : arrayScan oneString = (10, 120, 900, 100) := by
    unfold arrayScan oneString
    norm_num
  have hm : arrayMpp (10 : ℝ) 100 9 = ⟨9 / 100, 9, 900, 100⟩ := by
    unfold arrayMpp
    have m : min ((1 : ℝ) / 2 * 10 * 100 / (10 - 9)) 100 = 100 := by norm_num
    have x : max (dblEps : ℝ) 100 = 100 := max_eq_right (by linarith)
    simp only [m, x]
    rw [if_pos ⟨by linarith, by linarith⟩]
    norm_num
  unfold updateArray
  rw [hs]
  have hi : oneString.foldl (fun a s => a + s.predict (100 : ℝ)) 0 = 9 := by
    unfold oneString
    norm_num
  simp only [hi, hm]
  simp

private theorem one_proper : ProperArray (updateArray oneString) := by
  obtain ⟨h1, h2, h3, h4, -⟩ := one_array
  have e1 := dblEps_lt_one (K := ℝ)
  refine ⟨?_, ?_, ?_, ?_⟩
  · rw [h3]; linarith
  · rw [h2, h3]; linarith
  · rw [h4]; norm_num
  · rw [h1, h4]
    have : (dblEps : ℝ) ≤ 1 / 2 := by
      unfold dblEps
      norm_num
    linarith

private def noTrip : Sw.Trip ℝ := ⟨false, false, 0, 1, false⟩

private noncomputable def convAt (eff setpoint : ℝ) (s : RegState) : RegConv where
  limit := 1
  eff := eff
  setpoint := setpoint
  delta := 0
  bias := none
  powered := true
  enabled := true
  resetCmd := false
  trips := ⟨noTrip, noTrip, noTrip, noTrip, noTrip⟩
  state := s
  latch := false
  vreg := 0
  stateAdm := fun _ => 0
  stateSrc := fun _ => 0
  adm := 0
  src := 0
  flux := 0
  outPower := 0
  inPower := 0
  maxCurrent := 0
  power := 0
  waste := 0
  term := Load.clear

private theorem noTrip_check (g : Bool) (r : SolRes) (x : ℝ) (n : ℕ) : noTrip.check g r x n = (noTrip, r, false) := by
  unfold Sw.Trip.check noTrip
  simp

/-- **C79**, where it fails: below an efficiency of one the current of a limiting regulator at a short circuit is not reduced by
the efficiency.  This accepted regulator (half of the power lost, at 90 of the 100 volts of the corner) puts out 454.5 W, asks
909 W of an array that has 900 W, and the array gives nothing. -/
theorem c79_conv_short_overdraw : ∃ (a : ArrayCurve ℝ) (r r' : RegConv) (s : Sense ℝ),
    (∃ strings, a = updateArray strings) ∧ ProperArray a ∧ a.mpp.power = 900 ∧ (r.valid = true ∧ r.stateAdm = r.admOf a ∧ r.stateSrc = r.srcOf a) ∧
      r.minor.confirm a s 90 1 = some (.confirm, r') ∧ r'.state = .short ∧ r'.outPower = 909 / 2 ∧ r'.inPower = 909 ∧
      r'.term.power = 0 ∧ r'.term.current = 0 := by
  obtain ⟨h1, h2, h3, h4, h5⟩ := one_array
  have ep := dblEps_pos (K := ℝ)
  have e1 := dblEps_lt_one (K := ℝ)
  obtain ⟨a, ha⟩ : ∃ a, a = updateArray oneString := ⟨_, rfl⟩
  have hpr := one_proper
  rw [← ha] at h1 h2 h3 h4 h5 hpr
  let r : RegConv := (convAt (1 / 2) 150 .short).prepare a
  have hr : r.vreg = 150 := by
    show (max ((150 : ℝ) + 0) dblEps) = 150
    rw [add_zero, max_eq_left (by linarith)]
  have hlim : r.limit = 1 := by
    show max (1 : ℝ) 1 = 1
    simp
  have hadm : r.admOf a .short = 11 / 200 := by
    unfold RegConv.admOf
    have : r.eff = 1 / 2 := rfl
    simp only [hlim, h1, h3, h4, this]
    rw [max_eq_left (show (dblEps : ℝ) ≤ 100 * 1 by linarith)]
    unfold minAdm maxAdm
    norm_num
  have hsrc : r.srcOf a .short = 10 := by
    unfold RegConv.srcOf
    simp only [hlim, h1]
    norm_num
  have hflux : -90 * r.minor.adm + r.minor.src = (101 / 20 : ℝ) := by
    have a1 : r.minor.adm = r.admOf a .short := rfl
    have a2 : r.minor.src = r.srcOf a .short := rfl
    rw [a1, a2, hadm, hsrc]
    norm_num
  have hpin : (90 : ℝ) * (101 / 20) / r.minor.eff = 909 := by
    have : r.minor.eff = 1 / 2 := rfl
    rw [this]
    norm_num
  have hload : a.loadAtPower r.minor.term 909 (decide (r.minor.state = .short)) = some Load.clear := by
    unfold ArrayCurve.loadAtPower
    rw [if_neg (by linarith), h5, if_neg (by norm_num)]
  have hb : ¬ r.minor.blocked a 90 = true := by
    have : r.minor.blocked a 90 = decide (a.mpp.power < dblEps) := rfl
    rw [this, h5]
    simp only [decide_eq_true_eq, not_lt]
    linarith
  have hmode : r.minor.mode a 90 (Load.clear : Load ℝ).voltage = (.short, false) := by
    unfold RegConv.mode
    have s1 : r.minor.state = .short := rfl
    have s2 : r.minor.vreg = 150 := hr
    have s3 : (Load.clear : Load ℝ).voltage = 0 := rfl
    have s4 : r.minor.latch = false := rfl
    rw [s1, s2, s3, s4, h3]
    norm_num
  have hup : r.minor.update a 90 = some (false, { r.minor with
      flux := 101 / 20
      outPower := 90 * (101 / 20)
      inPower := 909
      term := Load.clear
      state := .short
      latch := false }) := by
    unfold RegConv.update
    rw [if_neg hb]
    simp only [hflux, hpin, hload, hmode]
    rfl
  refine ⟨a, r, { r.minor with
      flux := 101 / 20
      outPower := 90 * (101 / 20)
      inPower := 909
      term := Load.clear
      state := .short
      latch := false }, ⟨id, id, id, id⟩, ⟨_, ha⟩, hpr, h5, ⟨?_, rfl, rfl⟩, ?_, rfl, by norm_num, rfl, rfl, rfl⟩
  · unfold RegConv.valid
    have v1 : r.eff = 1 / 2 := rfl
    have v2 : r.setpoint = 150 := rfl
    have : (dblEps : ℝ) ≤ 1 / 2 := by
      unfold dblEps
      norm_num
    rw [hlim, v1, v2]
    simp only [Bool.not_eq_true', Bool.or_eq_false_iff, decide_eq_false_iff_not, Bool.not_eq_false', Bool.and_eq_true,
      decide_eq_true_eq, not_lt]
    refine ⟨⟨le_rfl, this, by norm_num⟩, by linarith⟩
  · unfold RegConv.confirm
    rw [hup]
    have ht : ∀ (x1 x2 x3 x4 : ℝ), RegTrips.check (⟨noTrip, noTrip, noTrip, noTrip, noTrip⟩ : RegTrips ℝ) SolRes.confirm x1 x2 x3 x4 1 =
        (⟨noTrip, noTrip, noTrip, noTrip, noTrip⟩, SolRes.confirm, false) := by
      intro x1 x2 x3 x4
      unfold RegTrips.check
      simp only [noTrip_check]
      rfl
    have tr : r.minor.trips = ⟨noTrip, noTrip, noTrip, noTrip, noTrip⟩ := rfl
    have p1 : r.minor.powered = true := rfl
    have p2 : r.minor.enabled = true := rfl
    simp only [tr, p1, p2]
    rw [if_pos ⟨by norm_num, trivial, trivial⟩]
    simp only [Bool.false_eq_true, false_and, if_false, ht]

/-- The step of a regulator at 110 V with no potential at its output: it goes from off to regulating, and a later potential of
200 V is rejected once. -/
example : ∃ r, (convAt 1 110 .off).step (updateArray oneString) 0 = some r ∧ r.state = .reg ∧
    convRejections (updateArray oneString) [⟨200, 1, ⟨id, id, id, id⟩⟩] r = some 1 := by
  obtain ⟨h1, h2, h3, h4, h5⟩ := one_array
  have ep := dblEps_pos (K := ℝ)
  have e1 := dblEps_lt_one (K := ℝ)
  obtain ⟨a, ha⟩ : ∃ a, a = updateArray oneString := ⟨_, rfl⟩
  have hpr := one_proper
  rw [← ha] at h1 h2 h3 h4 h5 hpr ⊢
  obtain ⟨⟨r, hr⟩, -⟩ := c79_conv_defined a hpr (convAt 1 110 .off) ⟨id, id, id, id⟩ 0 0
  refine ⟨r, hr, ?_⟩
  unfold RegConv.step at hr
  simp only at hr
  cases hm : ((convAt 1 110 .off).prepare a).maxOut a with
  | none => simp [hm] at hr
  | some i =>
    simp only [hm] at hr
    obtain ⟨q, hq⟩ : ∃ q : RegConv, q = { (convAt 1 110 .off).prepare a with
      maxCurrent := i
      latch := false } := ⟨_, rfl⟩
    rw [← hq] at hr
    have hvreg : q.vreg = 110 := by
      rw [hq]
      show (max ((110 : ℝ) + 0) dblEps) = 110
      rw [add_zero, max_eq_left (by linarith)]
    have hlim : q.limit = 1 := by
      rw [hq]
      show max (1 : ℝ) 1 = 1
      simp
    have hst : q.state = .off := by rw [hq]; rfl
    have hla : q.latch = false := by rw [hq]
    have htr : q.trips = ⟨noTrip, noTrip, noTrip, noTrip, noTrip⟩ := by rw [hq]; rfl
    have hpo : q.powered = true := by rw [hq]; rfl
    have hen : q.enabled = true := by rw [hq]; rfl
    have hb : ¬ q.blocked a 0 = true := by
      unfold RegConv.blocked
      rw [hpo, hen, htr, hst, h5]
      have : ¬ ((900 : ℝ) < dblEps) := by linarith
      simp [RegTrips.isTripped, noTrip, this]
    have hload : a.loadAtPower q.term 0 (decide (q.state = .short)) = some ⟨0, 0, 0, 120⟩ := by
      unfold ArrayCurve.loadAtPower
      rw [if_pos ep, h2]
    have hmode : q.mode a 0 120 = (.reg, true) := by
      unfold RegConv.mode
      rw [hlim, hvreg, hst, hla, if_pos (Or.inl (by norm_num)), if_pos ⟨by decide, rfl⟩]
    have hne : decide (RegState.reg ≠ q.state) = true := by
      rw [hst]
      decide
    have hup : q.update a 0 = some (true, { q with
        flux := q.src
        outPower := 0
        inPower := 0
        term := ⟨0, 0, 0, 120⟩
        state := .reg
        latch := true }) := by
      unfold RegConv.update
      rw [if_neg hb]
      simp only [neg_zero, zero_mul, zero_add, zero_div, hload, hmode, hne]
    rw [hup] at hr
    simp only [Option.some.injEq] at hr
    subst hr
    refine ⟨rfl, ?_⟩
    unfold convRejections
    have hb2 : RegConv.blocked a (RegConv.minor (RegConv.minor { q with
        flux := q.src
        outPower := 0
        inPower := 0
        term := ⟨0, 0, 0, 120⟩
        state := .reg
        latch := true })) 200 = true := by
      unfold RegConv.blocked RegConv.minor
      simp only [hvreg]
      norm_num
    have hload2 : ∀ t : Load ℝ, a.loadAtPower t 0 false = some ⟨0, 0, 0, 120⟩ := by
      intro t
      unfold ArrayCurve.loadAtPower
      rw [if_pos ep, h2]
    have ht : ∀ (x1 x2 x3 x4 : ℝ), RegTrips.check (⟨noTrip, noTrip, noTrip, noTrip, noTrip⟩ : RegTrips ℝ) SolRes.reject x1 x2 x3 x4 1 =
        (⟨noTrip, noTrip, noTrip, noTrip, noTrip⟩, SolRes.reject, false) := by
      intro x1 x2 x3 x4
      unfold RegTrips.check
      simp only [noTrip_check]
      rfl
    unfold RegConv.confirm RegConv.update
    rw [if_pos hb2]
    simp only [hload2]
    have c1 : ∀ x y : Option (SolRes × RegConv), (if (1 : ℕ) > 0 ∧ q.powered = true ∧ q.enabled = true then x else y) = x :=
      fun x y => if_pos ⟨by norm_num, hpo, hen⟩
    have c2 : (if decide (RegState.reg ≠ RegState.off) = true ∧ (1 : ℕ) > 0 then SolRes.reject else .confirm) = .reject := by decide
    simp only [RegConv.minor, c1, c2, htr, ht, convRejections]
    rfl

/-- The hypotheses of the curve and of the sagging regulator hold for this array with half of the power lost, at 110 V. -/
example : ∃ r : RegConv, r.eff = 1 / 2 ∧ ∃ u, r.update (updateArray oneString) 110 = some u ∧ u.2.term.voltage = 110 ∧
    u.2.outPower = u.2.inPower * (1 / 2) ∧ u.2.term.power = u.2.inPower := by
  obtain ⟨h1, h2, h3, h4, h5⟩ := one_array
  have ep := dblEps_pos (K := ℝ)
  have e1 := dblEps_lt_one (K := ℝ)
  obtain ⟨a, ha⟩ : ∃ a, a = updateArray oneString := ⟨_, rfl⟩
  have hpr := one_proper
  rw [← ha] at h1 h2 h3 h4 h5 hpr ⊢
  obtain ⟨r, hr⟩ : ∃ r : RegConv, r = ((convAt (1 / 2) 200 .sag).prepare a).minor := ⟨_, rfl⟩
  have hlim : r.limit = 1 := by
    rw [hr]
    show max (1 : ℝ) 1 = 1
    simp
  have heff : r.eff = 1 / 2 := by rw [hr]; rfl
  have hst : r.state = .sag := by rw [hr]; rfl
  have hs : r.src = r.srcOf a .sag := by rw [hr]; rfl
  have hA : r.adm = r.admOf a .sag := by rw [hr]; rfl
  have hb : r.blocked a 110 = false := by
    have : r.blocked a 110 = decide (a.mpp.power < dblEps) := by rw [hr]; rfl
    rw [this, h5]
    simp only [decide_eq_false_iff_not, not_lt]
    linarith
  have hc := c79_conv_curve a hpr r (by rw [hlim]) (by rw [heff]; norm_num)
    (by rw [hlim, heff, h2, h3, h4]; unfold minAdm; norm_num) (by rw [hlim, heff, h2, h3, h4]; unfold maxAdm; norm_num)
    (by rw [hlim, heff, h1, h3, h4]; unfold minAdm; norm_num) (by rw [hlim, heff, h1, h3, h4]; unfold maxAdm; norm_num) 110
  have hx : (110 : ℝ) / r.limit = 110 := by rw [hlim, div_one]
  have hc1 := hc.1 (by rw [hx, h3]; norm_num)
  rw [← hs, ← hA] at hc1
  have hfl : r.src - r.adm * 110 = 9 / 4 := by
    have := hc1.2 (by rw [hx, h3]; norm_num)
    rw [hlim, h2, h3, h4, heff, div_one] at this
    linarith
  obtain ⟨u, u1, u2, u3, u4, -⟩ := c79_conv_sag oneString a ha hpr (by rw [h2, h3]; norm_num) r (by rw [hlim]) (by rw [heff]; norm_num)
    110 hst hb (by rw [hx, h3]; norm_num) (by rw [hx, h2]; norm_num) hc1 (by rw [hfl, heff]; linarith)
  refine ⟨r, heff, u, u1, by rw [u2, hx], by rw [u4, heff], u3⟩

/-! ## What a step sets -/

private theorem update_sets (a : ArrayCurve ℝ) (r : RegConv) (v : ℝ) (u : Bool × RegConv) (h : r.update a v = some u) :
    u.2.vreg = r.vreg ∧ u.2.stateAdm = r.stateAdm ∧ u.2.stateSrc = r.stateSrc ∧ u.2.trips = r.trips ∧ u.2.resetCmd = r.resetCmd := by
  unfold RegConv.update at h
  split at h
  · split at h
    · exact absurd h (by simp)
    · cases h; exact ⟨rfl, rfl, rfl, rfl, rfl⟩
  · simp only at h
    split at h
    · exact absurd h (by simp)
    · cases h; exact ⟨rfl, rfl, rfl, rfl, rfl⟩

/-- **C79**: a step takes the regulated voltage from the setpoint with its delta and the malfunction's bias; a regulating regulator then gives the
admittance's current for what the output is below it, and one that is off next to none and from no source.  The trips are cleared by the command and by
a loss of power, and by nothing else, and the command is spent. -/
theorem c79_conv_step (a : ArrayCurve ℝ) (r q : RegConv) (v0 : ℝ) (h : r.step a v0 = some q) :
    q.vreg = max (r.setpoint + r.delta + r.bias.getD 0) dblEps ∧
      (∀ v, q.stateSrc .reg - q.stateAdm .reg * v = 10 ^ 8 * (q.vreg - v)) ∧
      (∀ v, q.stateSrc .off - q.stateAdm .off * v = -(v / 10 ^ 8)) ∧
      (r.resetCmd = true ∨ r.powered = false → q.trips.isTripped = false ∧ q.resetCmd = false) ∧
      (r.resetCmd = false → r.powered = true → q.trips = r.trips) := by
  have hv : (r.prepare a).vreg = max (r.setpoint + r.delta + r.bias.getD 0) dblEps := by
    unfold RegConv.prepare RegConv.regulated
    cases hb : r.bias <;> by_cases hc : (r.resetCmd || !r.powered) = true <;> simp [hc, hb]
  have hreg : (r.prepare a).stateAdm .reg = 10 ^ 8 ∧ (r.prepare a).stateSrc .reg = (r.prepare a).vreg * 10 ^ 8 := by
    have e : (maxAdm : ℝ) = 10 ^ 8 := by unfold maxAdm; norm_num
    unfold RegConv.prepare
    simp only [RegConv.admOf, RegConv.srcOf, e, and_self]
  have hoff : (r.prepare a).stateAdm .off = 1 / 10 ^ 8 ∧ (r.prepare a).stateSrc .off = 0 := by
    have e : (minAdm : ℝ) = 1 / 10 ^ 8 := by unfold minAdm; norm_num
    unfold RegConv.prepare
    simp only [RegConv.admOf, RegConv.srcOf, e, and_self]
  have ht : (r.resetCmd = true ∨ r.powered = false → (r.prepare a).trips.isTripped = false ∧ (r.prepare a).resetCmd = false) ∧
      (r.resetCmd = false → r.powered = true → (r.prepare a).trips = r.trips) := by
    constructor
    · intro hh
      have hc : (r.resetCmd || !r.powered) = true := by
        rcases hh with hh | hh <;> simp [hh]
      unfold RegConv.prepare
      simp [hc, RegTrips.reset, RegTrips.isTripped, Sw.Trip.reset]
    · intro h1 h2
      unfold RegConv.prepare
      simp [h1, h2]
  unfold RegConv.step at h
  simp only at h
  split at h
  · exact absurd h (by simp)
  · split at h
    · exact absurd h (by simp)
    · rename_i hu
      obtain ⟨u1, u2, u3, u4, u5⟩ := update_sets a _ v0 _ hu
      cases h
      refine ⟨?_, fun v => ?_, fun v => ?_, ?_, ?_⟩
      · exact u1.trans hv
      · show (_ : RegConv).stateSrc .reg - (_ : RegConv).stateAdm .reg * v = 10 ^ 8 * ((_ : RegConv).vreg - v)
        simp only [RegConv.minor]
        rw [u1, u2, u3]
        show (r.prepare a).stateSrc .reg - (r.prepare a).stateAdm .reg * v = 10 ^ 8 * ((r.prepare a).vreg - v)
        rw [hreg.1, hreg.2]; ring
      · simp only [RegConv.minor]
        rw [u2, u3]
        show (r.prepare a).stateSrc .off - (r.prepare a).stateAdm .off * v = _
        rw [hoff.1, hoff.2]; ring
      · simp only [RegConv.minor]
        rw [u4, u5]
        exact ht.1
      · simp only [RegConv.minor]
        rw [u4]
        exact ht.2

end Gunns.Props
