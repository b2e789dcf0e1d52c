import Verif.Props.Converter

/-!
# Property C54: the trips of electrical converters

A solution that a converter accepts is within the limits of its armed trips, and one beyond a limit trips it at the
step of its priority.
-/

set_option linter.unusedSectionVars false

namespace Gunns.Props

open Gunns Gunns.Elements Gunns.Conv

variable {K : Type _} [Field K] [LinearOrder K] [IsStrictOrderedRing K]

/-- A trip that can trip by its limit: not inhibited, not forced, not tripped, with a limit and a priority. -/
def Armed (t : Sw.Trip K) : Prop :=
  t.inhibit = false ∧ t.force = false ∧ t.tripped = false ∧ t.limit ≠ 0 ∧ 1 ≤ t.priority

/-- What a check does with the result: nothing, a delay, or a rejection; a rejection stays. -/
private theorem check_confirm {g : Bool} {t : Sw.Trip K} {r : SolRes} {x : K} {n : ℕ}
    (h : (t.check g r x n).2.1 = .confirm) : r = .confirm ∧ (Armed t → t.condition g x = false) := by
  unfold Sw.Trip.check at h
  dsimp only at h
  obtain ⟨u, hu⟩ : ∃ u, u = if t.inhibit then t.reset else t := ⟨_, rfl⟩
  have hut : Armed t → u = t := fun ha => by rw [hu, ha.1, if_neg (by decide)]
  rw [← hu] at h
  clear hu
  by_cases h1 : (!(u.tripped || u.inhibit || decide (u.limit = 0) || decide (u.priority < 1))) = true
  · rw [if_pos h1] at h
    by_cases h2 : (u.force || u.condition g x) = true
    · rw [if_pos h2] at h
      by_cases h3 : (u.force || decide (n = u.priority)) = true
      · rw [if_pos h3] at h
        cases h
      · rw [if_neg h3] at h
        by_cases h4 : r ≠ .reject
        · rw [if_pos h4] at h
          cases h
        · rw [if_neg h4] at h
          rw [not_not] at h4
          rw [h4] at h
          cases h
    · rw [if_neg h2] at h
      refine ⟨h, fun ha => ?_⟩
      rw [hut ha, ha.2.1, Bool.false_or] at h2
      exact Bool.eq_false_iff.2 h2
  · rw [if_neg h1] at h
    refine ⟨h, fun ha => absurd ?_ h1⟩
    rw [hut ha, ha.1, ha.2.2.1]
    have e1 : decide (t.limit = 0) = false := decide_eq_false ha.2.2.2.1
    have e2 : decide (t.priority < 1) = false := decide_eq_false (not_lt.2 ha.2.2.2.2)
    rw [e1, e2]
    rfl

/-- An armed trip beyond its limit trips at its priority. -/
private theorem check_trips {g : Bool} {t : Sw.Trip K} (r : SolRes) {x : K} {n : ℕ} (ha : Armed t)
    (hc : t.condition g x = true) (hn : n = t.priority) :
    (t.check g r x n).2.1 = .reject ∧ (t.check g r x n).1.tripped = true := by
  unfold Sw.Trip.check
  dsimp only
  obtain ⟨u, hu⟩ : ∃ u, u = if t.inhibit then t.reset else t := ⟨_, rfl⟩
  have hut : u = t := by rw [hu, ha.1, if_neg (by decide)]
  rw [← hu, hut]
  have e1 : decide (t.limit = 0) = false := decide_eq_false ha.2.2.2.1
  have e2 : decide (t.priority < 1) = false := decide_eq_false (not_lt.2 ha.2.2.2.2)
  rw [ha.1, ha.2.2.1, e1, e2, if_pos (by decide), hc, Bool.or_true, if_pos rfl,
    decide_eq_true hn, Bool.or_true, if_pos rfl]
  exact ⟨rfl, rfl⟩

/-- A rejection stays one. -/
private theorem check_reject (g : Bool) (t : Sw.Trip K) (x : K) (n : ℕ) : (t.check g .reject x n).2.1 = .reject := by
  unfold Sw.Trip.check
  dsimp only
  obtain ⟨u, hu⟩ : ∃ u, u = if t.inhibit then t.reset else t := ⟨_, rfl⟩
  rw [← hu]
  by_cases h1 : (!(u.tripped || u.inhibit || decide (u.limit = 0) || decide (u.priority < 1))) = true
  · rw [if_pos h1]
    by_cases h2 : (u.force || u.condition g x) = true
    · rw [if_pos h2]
      by_cases h3 : (u.force || decide (n = u.priority)) = true
      · rw [if_pos h3]
      · rw [if_neg h3, if_neg (by decide)]
    · rw [if_neg h2]
  · rw [if_neg h1]

/-- What the judgement of a solution does not change before the trips are checked. -/
private def Kept (a b : Out K) : Prop :=
  b.ov = a.ov ∧ b.uv = a.uv ∧ b.oc = a.oc ∧ b.enabled = a.enabled ∧ b.limiting = a.limiting ∧ b.reg = a.reg ∧
  b.pot = a.pot ∧ b.vSensor = a.vSensor ∧ b.iSensor = a.iSensor ∧ b.flux = a.flux ∧ b.ground = a.ground ∧
  b.powerValid = a.powerValid ∧ b.source = a.source ∧ b.adm = a.adm

private theorem bias_kept (o : Out K) (r : SolRes) (n : ℕ) (b : Bool) : Kept o (o.updateBias r n b).2 := by
  unfold Out.updateBias Kept
  dsimp only
  split <;> split <;> (try split) <;> (try split) <;>
    exact ⟨rfl, rfl, rfl, rfl, rfl, rfl, rfl, rfl, rfl, rfl, rfl, rfl, rfl, rfl⟩

/-- The current that the trips judge: what flows at the potential of the solution, or the current of before if the
link is on ground or its power is not valid. -/
def judgedCurrent (o : Out K) : K :=
  if o.ground || !o.powerValid then o.flux else max 0 (o.source - o.pot * o.adm)

private theorem own_kept (o : Out K) :
    o.ownPower.ov = o.ov ∧ o.ownPower.uv = o.uv ∧ o.ownPower.oc = o.oc ∧ o.ownPower.enabled = o.enabled ∧
    o.ownPower.limiting = o.limiting ∧ o.ownPower.reg = o.reg ∧ o.ownPower.pot = o.pot ∧
    o.ownPower.vSensor = o.vSensor ∧ o.ownPower.iSensor = o.iSensor ∧ o.ownPower.flux = judgedCurrent o := by
  unfold Out.ownPower Out.computePower judgedCurrent
  split <;> exact ⟨rfl, rfl, rfl, rfl, rfl, rfl, rfl, rfl, rfl, rfl⟩

/-- The result passes through the change of bias unless it is a rejection. -/
private theorem bias_res {o : Out K} {r : SolRes} {n : ℕ} {b : Bool} :
    (o.updateBias r n b).1 = r ∨ (o.updateBias r n b).1 = .reject := by
  unfold Out.updateBias
  extract_lets m
  by_cases h : o.reverse ≠ m.reverse
  · rw [if_pos h]
    exact Or.inr rfl
  · rw [if_neg h]
    exact Or.inl rfl

/-- So does it through the change of the limiting, which keeps the trips. -/
private theorem limit_res (sq : K → K) (o : Out K) (r : SolRes) (v i : K) :
    ((o.updateLimit sq r v i).2.1 = r ∨ (o.updateLimit sq r v i).2.1 = .reject) ∧
    (o.updateLimit sq r v i).2.2.ov = o.ov ∧ (o.updateLimit sq r v i).2.2.uv = o.uv ∧
    (o.updateLimit sq r v i).2.2.oc = o.oc := by
  unfold Out.updateLimit
  split
  · split
    · unfold Out.currentLimit Out.rejectWith
      dsimp only
      split
      · exact ⟨Or.inr rfl, rfl, rfl, rfl⟩
      · split
        · exact ⟨Or.inr rfl, rfl, rfl, rfl⟩
        · exact ⟨Or.inl rfl, rfl, rfl, rfl⟩
    · unfold Out.voltageLimit Out.rejectWith
      dsimp only
      split <;> split <;> (try split) <;> (try split) <;>
        first
        | exact ⟨Or.inl rfl, rfl, rfl, rfl⟩
        | exact ⟨Or.inr rfl, rfl, rfl, rfl⟩
  · exact ⟨Or.inl rfl, rfl, rfl, rfl⟩

/-- The checks of the trips, case by case. -/
private theorem checkTrips_form (o : Out K) (r : SolRes) (v i : K) (n : ℕ) (he : o.enabled = true) :
    ∃ q : SolRes × Out K,
      (o.limiting = true ∧ o.reg.isVoltage = false → q = (r, o)) ∧
      (¬ (o.limiting = true ∧ o.reg.isVoltage = false) →
        q = ((o.uv.check false (o.ov.check true r v n).2.1 v n).2.1, { o with
            ov := (o.ov.check true r v n).1
            uv := (o.uv.check false (o.ov.check true r v n).2.1 v n).1 })) ∧
      (o.limiting = true → o.checkTrips r v i n = q) ∧
      (o.limiting = false → o.checkTrips r v i n =
        ((q.2.oc.check true q.1 i n).2.1, { q.2 with oc := (q.2.oc.check true q.1 i n).1 })) := by
  unfold Out.checkTrips
  rw [if_pos he]
  by_cases hc : o.limiting = true ∧ o.reg.isVoltage = false
  · refine ⟨(r, o), fun _ => rfl, fun g => absurd hc g, fun h => ?_, fun h => ?_⟩
    · rw [hc.1, hc.2]
      rfl
    · rw [hc.1] at h
      cases h
  · have hd : (!(o.limiting && !o.reg.isVoltage)) = true := by
      cases h1 : o.limiting
      · rfl
      · cases h2 : o.reg.isVoltage
        · exact absurd ⟨h1, h2⟩ hc
        · rfl
    refine ⟨_, fun g => absurd g hc, fun _ => rfl, fun h => ?_, fun h => ?_⟩
    · rw [if_pos hd, h]
      rfl
    · rw [if_pos hd, h]
      rfl

/-- C54, trips: a solution that an enabled output accepts after convergence is within the limits of its armed trips:
those on voltage if it is not a current regulator that limits, the one on current if it does not limit. -/
theorem c54_trips (sq : K → K) (o : Out K) (n : ℕ) (hn : 0 < n) (he : o.enabled = true)
    (h : (o.judge sq n).1 = .confirm) :
    (o.limiting = false ∨ o.reg.isVoltage = true →
      (Armed o.ov → sensed o.vSensor o.pot ≤ o.ov.limit) ∧ (Armed o.uv → o.uv.limit ≤ sensed o.vSensor o.pot)) ∧
    (o.limiting = false → Armed o.oc → sensed o.iSensor (judgedCurrent o) ≤ o.oc.limit) := by
  unfold Out.judge at h
  dsimp only at h
  have hb := bias_kept o .confirm n false
  generalize o.updateBias .confirm n false = q at h hb
  obtain ⟨b1, b2, b3, b4, b5, b6, b7, b8, b9, b10, b11, b12, b13, b14⟩ := hb
  by_cases hq : n > 0 ∧ q.1 ≠ .reject
  · rw [if_pos hq] at h
    have ho := own_kept q.2
    have hj : judgedCurrent q.2 = judgedCurrent o := by
      unfold judgedCurrent
      rw [b11, b12, b10, b13, b7, b14]
    rw [hj] at ho
    generalize q.2.ownPower = p at h ho
    obtain ⟨o1, o2, o3, o4, o5, o6, o7, o8, o9, o10⟩ := ho
    rw [o8, o7, o9, o10, b8, b7, b9] at h
    obtain ⟨u, h1, h2, h3, h4⟩ := checkTrips_form p q.1 (sensed o.vSensor o.pot) (sensed o.iSensor (judgedCurrent o)) n
      (by rw [o4, b4]; exact he)
    have hc : (p.checkTrips q.1 (sensed o.vSensor o.pot) (sensed o.iSensor (judgedCurrent o)) n).1 = .confirm := by
      generalize p.checkTrips q.1 (sensed o.vSensor o.pot) (sensed o.iSensor (judgedCurrent o)) n = w at h
      have hl := (limit_res sq w.2 w.1 (sensed o.vSensor o.pot) (sensed o.iSensor (judgedCurrent o))).1
      generalize w.2.updateLimit sq w.1 (sensed o.vSensor o.pot) (sensed o.iSensor (judgedCurrent o)) = l at h hl
      rcases bias_res (o := l.2.2) (r := l.2.1) (n := n) (b := l.1) with g | g
      · rw [h] at g
        rcases hl with k | k
        · rw [← k, ← g]
        · rw [k] at g; cases g
      · rw [h] at g; cases g
    have huv : u.1 = .confirm → (o.limiting = false ∨ o.reg.isVoltage = true) →
        (Armed o.ov → sensed o.vSensor o.pot ≤ o.ov.limit) ∧
        (Armed o.uv → o.uv.limit ≤ sensed o.vSensor o.pot) := by
      intro hu hr
      have e := h2 (by
        rw [o5, b5, o6, b6]
        rintro ⟨g1, g2⟩
        rcases hr with k | k
        · rw [k] at g1; cases g1
        · rw [k] at g2; cases g2)
      rw [e] at hu
      obtain ⟨k1, k2⟩ := check_confirm hu
      obtain ⟨-, k3⟩ := check_confirm k1
      rw [o1, b1] at k3
      rw [o2, b2] at k2
      exact ⟨fun a => not_lt.1 (of_decide_eq_false (k3 a)), fun a => not_lt.1 (of_decide_eq_false (k2 a))⟩
    cases hl : o.limiting
    · have hl' : p.limiting = false := by rw [o5, b5, hl]
      rw [h4 hl'] at hc
      obtain ⟨k1, k2⟩ := check_confirm hc
      have hu := huv k1
      rw [hl] at hu
      refine ⟨fun g => hu g, fun _ a => ?_⟩
      have e := h2 (by rw [hl']; rintro ⟨g, -⟩; cases g)
      have e' : u.2.oc = o.oc := by rw [e]; show p.oc = _; rw [o3, b3]
      rw [e'] at k2
      exact not_lt.1 (of_decide_eq_false (k2 a))
    · have hl' : p.limiting = true := by rw [o5, b5, hl]
      rw [h3 hl'] at hc
      have hu := huv hc
      rw [hl] at hu
      exact ⟨fun g => hu g, (fun g => by cases g)⟩
  · rw [if_neg hq] at h
    exact absurd ⟨hn, by rw [h]; decide⟩ hq

/-- C54, trips: beyond the limit, the trip on current of an output that does not limit trips at the step of its
priority, and the solution is rejected, if the output does not change its bias first. -/
theorem c54_trips_current (sq : K → K) (o : Out K) (n : ℕ) (he : o.enabled = true) (hl : o.limiting = false)
    (ha : Armed o.oc) (hn : n = o.oc.priority) (hb : (o.updateBias .confirm n false).1 ≠ .reject)
    (hc : o.oc.limit < sensed o.iSensor (judgedCurrent o)) :
    (o.judge sq n).1 = .reject ∧ (o.judge sq n).2.oc.tripped = true := by
  unfold Out.judge
  dsimp only
  have hk := bias_kept o .confirm n false
  generalize o.updateBias .confirm n false = q at hb hk
  obtain ⟨b1, b2, b3, b4, b5, b6, b7, b8, b9, b10, b11, b12, b13, b14⟩ := hk
  rw [if_pos ⟨by rw [hn]; exact ha.2.2.2.2, hb⟩]
  have ho := own_kept q.2
  have hj : judgedCurrent q.2 = judgedCurrent o := by
    unfold judgedCurrent
    rw [b11, b12, b10, b13, b7, b14]
  rw [hj] at ho
  generalize q.2.ownPower = p at ho
  obtain ⟨o1, o2, o3, o4, o5, o6, o7, o8, o9, o10⟩ := ho
  rw [o8, o7, o9, o10, b8, b7, b9]
  obtain ⟨u, h1, h2, h3, h4⟩ := checkTrips_form p q.1 (sensed o.vSensor o.pot) (sensed o.iSensor (judgedCurrent o)) n
    (by rw [o4, b4]; exact he)
  have hl' : p.limiting = false := by rw [o5, b5, hl]
  have e := h2 (by rw [hl']; rintro ⟨g, -⟩; cases g)
  have e' : u.2.oc = o.oc := by rw [e]; show p.oc = _; rw [o3, b3]
  have hw := h4 hl'
  generalize p.checkTrips q.1 (sensed o.vSensor o.pot) (sensed o.iSensor (judgedCurrent o)) n = w at hw
  obtain ⟨k1, k2⟩ := check_trips (g := true) u.1 (x := sensed o.iSensor (judgedCurrent o)) (n := n) ha
    (decide_eq_true hc) hn
  have w1 : w.1 = .reject := by rw [hw, e']; exact k1
  have w2 : w.2.oc.tripped = true := by rw [hw, e']; exact k2
  obtain ⟨m1, -, -, m4⟩ := limit_res sq w.2 w.1 (sensed o.vSensor o.pot) (sensed o.iSensor (judgedCurrent o))
  generalize w.2.updateLimit sq w.1 (sensed o.vSensor o.pot) (sensed o.iSensor (judgedCurrent o)) = l at m1 m4
  have l1 : l.2.1 = .reject := by
    rcases m1 with g | g
    · rw [g, w1]
    · exact g
  refine ⟨?_, ?_⟩
  · rcases bias_res (o := l.2.2) (r := l.2.1) (n := n) (b := l.1) with g | g
    · rw [g, l1]
    · exact g
  · rw [(bias_kept l.2.2 l.2.1 n l.1).2.2.1, m4]
    exact w2

/-- C54, trips: beyond its limit a trip on voltage trips in the same way. -/
theorem c54_trips_voltage (sq : K → K) (o : Out K) (n : ℕ) (he : o.enabled = true)
    (hl : o.limiting = false ∨ o.reg.isVoltage = true) (hb : (o.updateBias .confirm n false).1 ≠ .reject) :
    (Armed o.ov → n = o.ov.priority → o.ov.limit < sensed o.vSensor o.pot →
      (o.judge sq n).1 = .reject ∧ (o.judge sq n).2.ov.tripped = true) ∧
    (Armed o.uv → n = o.uv.priority → sensed o.vSensor o.pot < o.uv.limit →
      (o.judge sq n).1 = .reject ∧ (o.judge sq n).2.uv.tripped = true) := by
  by_cases hn : 0 < n
  swap
  · exact ⟨fun a h => absurd (h ▸ a.2.2.2.2) (by omega), fun a h => absurd (h ▸ a.2.2.2.2) (by omega)⟩
  unfold Out.judge
  dsimp only
  have hk := bias_kept o .confirm n false
  generalize o.updateBias .confirm n false = q at hb hk
  obtain ⟨b1, b2, b3, b4, b5, b6, b7, b8, b9, b10, b11, b12, b13, b14⟩ := hk
  rw [if_pos ⟨hn, hb⟩]
  have ho := own_kept q.2
  have hj : judgedCurrent q.2 = judgedCurrent o := by
    unfold judgedCurrent
    rw [b11, b12, b10, b13, b7, b14]
  rw [hj] at ho
  generalize q.2.ownPower = p at ho
  obtain ⟨o1, o2, o3, o4, o5, o6, o7, o8, o9, o10⟩ := ho
  rw [o8, o7, o9, o10, b8, b7, b9]
  obtain ⟨u, h1, h2, h3, h4⟩ := checkTrips_form p q.1 (sensed o.vSensor o.pot) (sensed o.iSensor (judgedCurrent o)) n
    (by rw [o4, b4]; exact he)
  have e := h2 (by
    rw [o5, b5, o6, b6]
    rintro ⟨g1, g2⟩
    rcases hl with k | k
    · rw [k] at g1; cases g1
    · rw [k] at g2; cases g2)
  obtain ⟨w, hw, w1, w2, w3⟩ : ∃ w, p.checkTrips q.1 (sensed o.vSensor o.pot) (sensed o.iSensor (judgedCurrent o)) n = w ∧
      (u.1 = .reject → w.1 = .reject) ∧ w.2.ov = u.2.ov ∧ w.2.uv = u.2.uv := by
    cases hp : p.limiting
    · exact ⟨_, h4 hp, (fun g => by rw [g]; exact check_reject _ _ _ _), rfl, rfl⟩
    · exact ⟨_, h3 hp, id, rfl, rfl⟩
  rw [hw]
  have out : ∀ w : SolRes × Out K, w.1 = .reject →
      let l := w.2.updateLimit sq w.1 (sensed o.vSensor o.pot) (sensed o.iSensor (judgedCurrent o))
      (l.2.2.updateBias l.2.1 n l.1).1 = .reject ∧ (l.2.2.updateBias l.2.1 n l.1).2.ov = w.2.ov ∧
      (l.2.2.updateBias l.2.1 n l.1).2.uv = w.2.uv := by
    intro w hw l
    obtain ⟨m1, m2, m3, -⟩ := limit_res sq w.2 w.1 (sensed o.vSensor o.pot) (sensed o.iSensor (judgedCurrent o))
    have l1 : l.2.1 = .reject := by
      rcases m1 with g | g
      · exact g.trans hw
      · exact g
    refine ⟨?_, (bias_kept l.2.2 l.2.1 n l.1).1.trans m2, (bias_kept l.2.2 l.2.1 n l.1).2.1.trans m3⟩
    rcases bias_res (o := l.2.2) (r := l.2.1) (n := n) (b := l.1) with g | g
    · rw [g, l1]
    · exact g
  constructor
  · intro a hp hc
    obtain ⟨k1, k2⟩ := check_trips (g := true) q.1 (x := sensed o.vSensor o.pot) (n := n) a (decide_eq_true hc) hp
    have hu1 : u.1 = .reject := by
      rw [e]
      show (p.uv.check false (p.ov.check true q.1 _ n).2.1 _ n).2.1 = _
      rw [o1, b1, k1]
      exact check_reject _ _ _ _
    obtain ⟨f1, f2, -⟩ := out w (w1 hu1)
    refine ⟨f1, ?_⟩
    rw [f2, w2, e]
    show (p.ov.check true q.1 _ n).1.tripped = true
    rw [o1, b1]
    exact k2
  · intro a hp hc
    obtain ⟨k1, k2⟩ := check_trips (g := false) (o.ov.check true q.1 (sensed o.vSensor o.pot) n).2.1
      (x := sensed o.vSensor o.pot) (n := n) a (decide_eq_true hc) hp
    have hu1 : u.1 = .reject := by
      rw [e]
      show (p.uv.check false (p.ov.check true q.1 _ n).2.1 _ n).2.1 = _
      rw [o1, b1, o2, b2]
      exact k1
    obtain ⟨f1, -, f2⟩ := out w (w1 hu1)
    refine ⟨f1, ?_⟩
    rw [f2, w3, e]
    show (p.uv.check false (p.ov.check true q.1 _ n).2.1 _ n).1.tripped = true
    rw [o1, b1, o2, b2]
    exact k2

/-- C54, trips of the input: the same of its voltage. -/
theorem c54_trips_input (i : In K) (n : ℕ) (he : i.enabled = true) :
    ((i.judge n).1 = .confirm → (Armed i.ov → sensed i.sensor i.pot ≤ i.ov.limit) ∧
      (Armed i.uv → i.uv.limit ≤ sensed i.sensor i.pot)) ∧
    (Armed i.ov → n = i.ov.priority → i.ov.limit < sensed i.sensor i.pot →
      (i.judge n).1 = .reject ∧ (i.judge n).2.ov.tripped = true) ∧
    (Armed i.uv → n = i.uv.priority → sensed i.sensor i.pot < i.uv.limit →
      (i.judge n).1 = .reject ∧ (i.judge n).2.uv.tripped = true) := by
  have hc : ∀ t : SolRes × In K, i.checkTrips (sensed i.sensor i.pot) n = t →
      ((i.judge n).1 = .confirm → t.1 = .confirm) ∧
      (t.1 = .reject → (i.judge n).1 = .reject ∧ (i.judge n).2.ov = t.2.ov ∧ (i.judge n).2.uv = t.2.uv) := by
    intro t ht
    unfold In.judge
    rw [ht]
    dsimp only
    split
    · rename_i h
      refine ⟨fun _ => h.1, fun g => ?_⟩
      rw [h.1] at g
      cases g
    · exact ⟨id, fun g => ⟨g, rfl, rfl⟩⟩
  obtain ⟨c1, c2⟩ := hc _ rfl
  unfold In.checkTrips at c1 c2
  rw [if_pos he] at c1 c2
  dsimp only at c1 c2
  refine ⟨fun h => ?_, fun a hp hx => ?_, fun a hp hx => ?_⟩
  · obtain ⟨k1, k2⟩ := check_confirm (c1 h)
    obtain ⟨-, k3⟩ := check_confirm k1
    exact ⟨fun a => not_lt.1 (of_decide_eq_false (k3 a)), fun a => not_lt.1 (of_decide_eq_false (k2 a))⟩
  · obtain ⟨k1, k2⟩ := check_trips (g := true) .confirm (x := sensed i.sensor i.pot) (n := n) a (decide_eq_true hx) hp
    obtain ⟨f1, f2, -⟩ := c2 (by rw [k1]; exact check_reject _ _ _ _)
    exact ⟨f1, by rw [f2]; exact k2⟩
  · obtain ⟨k1, k2⟩ := check_trips (g := false) (i.ov.check true .confirm (sensed i.sensor i.pot) n).2.1
      (x := sensed i.sensor i.pot) (n := n) a (decide_eq_true hx) hp
    obtain ⟨f1, -, f2⟩ := c2 k1
    exact ⟨f1, by rw [f2]; exact k2⟩

private theorem inMinor_kept (p : Pair K) : p.inMinor.inp.overloaded = p.inp.overloaded ∧ p.inMinor.inp.ov = p.inp.ov ∧
    p.inMinor.inp.uv = p.inp.uv ∧ p.inMinor.inp.resetCmd = p.inp.resetCmd := by
  unfold Pair.inMinor
  split
  · exact ⟨rfl, rfl, rfl, rfl⟩
  · dsimp only
    split
    · split <;> exact ⟨rfl, rfl, rfl, rfl⟩
    · exact ⟨rfl, rfl, rfl, rfl⟩

private theorem contribute_kept (sq : K → K) (o : Out K) :
    (o.contribute sq).ov = o.ov ∧ (o.contribute sq).uv = o.uv ∧ (o.contribute sq).oc = o.oc ∧
    (o.contribute sq).resetCmd = o.resetCmd ∧ (o.contribute sq).reverseFlips = o.reverseFlips ∧
    (o.contribute sq).limitFlips = o.limitFlips ∧ (o.contribute sq).available = o.available ∧
    (o.contribute sq).voltage = o.voltage := ⟨rfl, rfl, rfl, rfl, rfl, rfl, rfl, rfl⟩

private theorem outMinor_kept (sq : K → K) (p : Pair K) (m : ℕ) :
    (p.outMinor sq m).out.ov = p.out.ov ∧ (p.outMinor sq m).out.uv = p.out.uv ∧
    (p.outMinor sq m).out.oc = p.out.oc ∧ (p.outMinor sq m).out.resetCmd = p.out.resetCmd ∧
    (p.outMinor sq m).out.reverseFlips = p.out.reverseFlips ∧ (p.outMinor sq m).out.limitFlips = p.out.limitFlips ∧
    (p.outMinor sq m).inp.ov = p.inp.ov ∧ (p.outMinor sq m).inp.uv = p.inp.uv ∧
    (p.out.ground = false → (p.outMinor sq m).out.available =
      if m = 1 then decide ((p.outMinor sq m).out.voltage > 0) else p.out.available) := by
  have ho : p.out.ownPower.ov = p.out.ov ∧ p.out.ownPower.uv = p.out.uv ∧ p.out.ownPower.oc = p.out.oc ∧
      p.out.ownPower.resetCmd = p.out.resetCmd ∧ p.out.ownPower.reverseFlips = p.out.reverseFlips ∧
      p.out.ownPower.limitFlips = p.out.limitFlips ∧ p.out.ownPower.available = p.out.available := by
    unfold Out.ownPower Out.computePower
    split <;> exact ⟨rfl, rfl, rfl, rfl, rfl, rfl, rfl⟩
  by_cases hg : p.out.ground = true
  · unfold Pair.outMinor
    rw [if_pos hg]
    refine ⟨rfl, rfl, rfl, rfl, rfl, rfl, rfl, rfl, fun h => ?_⟩
    rw [hg] at h
    cases h
  · obtain ⟨q, r, e, hq, hr⟩ : ∃ (q : Pair K) (r : Out K), p.outMinor sq m = { q with out := r.contribute sq } ∧
        (q.out.ov = p.out.ownPower.ov ∧ q.out.uv = p.out.ownPower.uv ∧ q.out.oc = p.out.ownPower.oc ∧
        q.out.resetCmd = p.out.ownPower.resetCmd ∧ q.out.reverseFlips = p.out.ownPower.reverseFlips ∧
        q.out.limitFlips = p.out.ownPower.limitFlips ∧ q.out.available = p.out.ownPower.available ∧
        q.inp.ov = p.inp.ov ∧ q.inp.uv = p.inp.uv) ∧
        (r.ov = q.out.ov ∧ r.uv = q.out.uv ∧ r.oc = q.out.oc ∧ r.resetCmd = q.out.resetCmd ∧
        r.reverseFlips = q.out.reverseFlips ∧ r.limitFlips = q.out.limitFlips ∧
        r.available = (if m = 1 then decide (r.voltage > 0) else q.out.available)) := by
      unfold Pair.outMinor
      rw [if_neg hg]
      refine ⟨_, _, rfl, ?_, ?_⟩
      · dsimp only
        generalize p.out.ownPower = o
        by_cases hl : p.linked = true
        · rw [if_pos hl]
          by_cases hd : o.leads = true
          · rw [if_pos hd]
            exact ⟨rfl, rfl, rfl, rfl, rfl, rfl, rfl, rfl, rfl⟩
          · rw [if_neg hd]
            exact ⟨rfl, rfl, rfl, rfl, rfl, rfl, rfl, rfl, rfl⟩
        · rw [if_neg hl]
          exact ⟨rfl, rfl, rfl, rfl, rfl, rfl, rfl, rfl, rfl⟩
      · dsimp only
        generalize (if p.linked = true then _ else _ : Pair K) = q
        by_cases hm : m = 1
        · simp only [if_pos hm]
          trivial
        · simp only [if_neg hm]
          trivial
    rw [e]
    obtain ⟨o1, o2, o3, o4, o5, o6, o7⟩ := ho
    obtain ⟨q1, q2, q3, q4, q5, q6, q7, q8, q9⟩ := hq
    obtain ⟨r1, r2, r3, r4, r5, r6, r7⟩ := hr
    obtain ⟨c1, c2, c3, c4, c5, c6, c7, c8⟩ := contribute_kept sq r
    refine ⟨c1.trans (r1.trans (q1.trans o1)), c2.trans (r2.trans (q2.trans o2)), c3.trans (r3.trans (q3.trans o3)),
      c4.trans (r4.trans (q4.trans o4)), c5.trans (r5.trans (q5.trans o5)), c6.trans (r6.trans (q6.trans o6)),
      q8, q9, fun _ => ?_⟩
    rw [q7, o7] at r7
    exact c7.trans r7

/-- C54, a new step: the input is no longer overloaded, the output has all its changes left, and is available exactly
if there is an input voltage, which later minor steps of the step do not ask again; trips stay unless a reset is
commanded, which resets all those of a side, for the output also those of its input. -/
theorem c54_fresh (sq : K → K) (p : Pair K) :
    p.inStep.inp.overloaded = false ∧ p.inStep.inp.resetCmd = false ∧
    (p.inp.resetCmd = false → p.inStep.inp.ov = p.inp.ov ∧ p.inStep.inp.uv = p.inp.uv) ∧
    (p.inp.resetCmd = true → p.inStep.inp.ov.tripped = false ∧ p.inStep.inp.uv.tripped = false) ∧
    (p.outStep sq).out.reverseFlips = 0 ∧ (p.outStep sq).out.limitFlips = 0 ∧ (p.outStep sq).out.resetCmd = false ∧
    (p.out.ground = false → ((p.outStep sq).out.available = true ↔ 0 < (p.outStep sq).out.voltage)) ∧
    (p.out.ground = false → ∀ m, m ≠ 1 → (p.outMinor sq m).out.available = p.out.available) ∧
    (p.out.resetCmd = false → (p.outStep sq).out.ov = p.out.ov ∧ (p.outStep sq).out.uv = p.out.uv ∧
      (p.outStep sq).out.oc = p.out.oc ∧ (p.outStep sq).inp.ov = p.inp.ov ∧ (p.outStep sq).inp.uv = p.inp.uv) ∧
    (p.out.resetCmd = true → (p.outStep sq).out.ov.tripped = false ∧ (p.outStep sq).out.uv.tripped = false ∧
      (p.outStep sq).out.oc.tripped = false ∧
      (p.linked = true → (p.outStep sq).inp.ov.tripped = false ∧ (p.outStep sq).inp.uv.tripped = false)) := by
  have hin : ∃ i : In K, p.inStep = ({ p with inp := i } : Pair K).inMinor ∧ i.overloaded = false ∧
      i.resetCmd = false ∧ (p.inp.resetCmd = false → i.ov = p.inp.ov ∧ i.uv = p.inp.uv) ∧
      (p.inp.resetCmd = true → i.ov.tripped = false ∧ i.uv.tripped = false) := by
    unfold Pair.inStep
    dsimp only
    refine ⟨_, rfl, ?_⟩
    cases h : p.inp.resetCmd
    · rw [if_neg (by decide)]
      exact ⟨rfl, rfl, fun _ => ⟨rfl, rfl⟩, (fun g => by cases g)⟩
    · rw [if_pos rfl]
      exact ⟨rfl, rfl, (fun g => by cases g), fun _ => ⟨rfl, rfl⟩⟩
  obtain ⟨i, hi, i1, i2, i3, i4⟩ := hin
  obtain ⟨a1, a2, a3, a4⟩ := inMinor_kept ({ p with inp := i } : Pair K)
  have hout : ∃ q : Pair K, p.outStep sq = q.outMinor sq 1 ∧ q.out.ground = p.out.ground ∧ q.out.reverseFlips = 0 ∧
      q.out.limitFlips = 0 ∧ q.out.resetCmd = false ∧
      (p.out.resetCmd = false → q.out.ov = p.out.ov ∧ q.out.uv = p.out.uv ∧ q.out.oc = p.out.oc ∧
        q.inp.ov = p.inp.ov ∧ q.inp.uv = p.inp.uv) ∧
      (p.out.resetCmd = true → q.out.ov.tripped = false ∧ q.out.uv.tripped = false ∧ q.out.oc.tripped = false ∧
        (p.linked = true → q.inp.ov.tripped = false ∧ q.inp.uv.tripped = false)) := by
    unfold Pair.outStep
    dsimp only
    refine ⟨_, rfl, ?_⟩
    cases h : p.out.resetCmd
    · rw [if_neg (by decide)]
      exact ⟨rfl, rfl, rfl, h, fun _ => ⟨rfl, rfl, rfl, rfl, rfl⟩, (fun g => by cases g)⟩
    · rw [if_pos rfl]
      refine ⟨rfl, rfl, rfl, rfl, (fun g => by cases g), fun _ => ⟨rfl, rfl, rfl, fun hl => ?_⟩⟩
      rw [if_pos hl]
      exact ⟨rfl, rfl⟩
  obtain ⟨q, hq, q0, q1, q2, q3, q4, q5⟩ := hout
  obtain ⟨b1, b2, b3, b4, b5, b6, b7, b8, b9⟩ := outMinor_kept sq q 1
  rw [hi, hq, a1, a2, a3, a4, b1, b2, b3, b4, b5, b6, b7, b8]
  refine ⟨i1, i2, i3, i4, q1, q2, q3, fun g => ?_, fun g m hm => ?_, q4, q5⟩
  · rw [b9 (q0.trans g), if_pos rfl]
    exact decide_eq_true_iff
  · rw [(outMinor_kept sq p m).2.2.2.2.2.2.2.2 g, if_neg hm]

/-- A regulator with an over-current trip at 1 A and priority 2 trips at 2 A. -/
example :
    let o : Out ℚ := { sampleOut with
      oc := ⟨false, false, 1, 2, false⟩
      pot := 9
      source := 20
      adm := 2
      enabled := true
      limiting := false
      powerValid := true
      sourceVoltage := 10
      limit := .no
      reverse := false
      iSensor := none }
    (o.updateBias .confirm 2 false).1 = .confirm ∧ (o.judge noRoot 2).1 = .reject ∧
      (o.judge noRoot 2).2.oc.tripped = true ∧ (o.judge noRoot 1).1 = .delay := by
  decide +kernel

end Gunns.Props
