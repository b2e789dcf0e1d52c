import Verif.Elect.UserLoad
import Mathlib.Tactic.Linarith
import Mathlib.Tactic.FieldSimp
import Mathlib.Tactic.LinearCombination
import Mathlib.Tactic.Ring
import Mathlib.Tactic.NormNum
import Mathlib.Tactic.Positivity
import Mathlib.Algebra.Order.BigOperators.Group.List
import Mathlib.Algebra.BigOperators.Group.List.Lemmas

/-!
# C93: electrical user loads, their fuses, duty cycles and bus
-/

namespace Gunns.Props

open Gunns Gunns.UserLoad Gunns.Interp

set_option linter.unusedSectionVars false

variable {K : Type*} [Field K] [LinearOrder K] [IsStrictOrderedRing K]

/-- The voltage at a load: magic power's, none behind a blown fuse, or that of the supply. -/
def c93volts (v : K) (l : UserLoad.Load K) : K :=
  match l.magic with
  | some m => m
  | none => if l.blow = true ∨ l.blown = true then 0 else v

/-- The resistance that is meant by `r`: none means no connection. -/
def c93ohms (r : K) : K := if r ≤ 0 then 10 ^ 8 else max (1 / 10) (min r (10 ^ 8))

/-- The power a load is meant to draw at the voltage `u`. -/
def c93demand (u : K) (l : UserLoad.Load K) : K :=
  if u ≤ l.least then 0
  else match l.kind, l.overI, l.overP, l.mode with
    | .power, some i, _, _ => u * i
    | .power, none, some p, _ => p
    | .power, none, none, .on => l.normal
    | .power, none, none, .standby => l.standby
    | .resistive, some i, _, _ => if i = 0 then u ^ 2 / 10 ^ 8 else u * i
    | .resistive, none, some p, _ => if p = 0 then u ^ 2 / 10 ^ 8 else p
    | .resistive, none, none, .on => u ^ 2 / c93ohms l.normal
    | .resistive, none, none, .standby => u ^ 2 / c93ohms l.standby
    | _, none, none, .off => 0

/-- No negative limit, override or power. -/
def c93Sane (l : UserLoad.Load K) : Prop :=
  0 ≤ l.least ∧ (∀ i, l.overI = some i → 0 ≤ i) ∧ (∀ p, l.overP = some p → 0 ≤ p) ∧
    (l.kind = .power → 0 ≤ l.normal ∧ 0 ≤ l.standby)

private theorem base_seen (v : K) (l : UserLoad.Load K) : (baseStep v l).voltage = c93volts v l := by
  unfold baseStep seen c93volts
  simp only
  cases l.magic with
  | some m => rfl
  | none =>
    cases l.blow <;> cases l.blown <;> simp

private theorem ohms_pos (r : K) : 0 < c93ohms r := by
  unfold c93ohms
  split
  · positivity
  · exact lt_of_lt_of_le (by positivity) (le_max_left _ _)

private theorem modeRes_eq (r : K) : modeRes r = c93ohms r := by
  unfold modeRes c93ohms minRes maxRes limitRange
  by_cases h : 0 < r
  · rw [if_pos h, if_neg (not_le.2 h), max_comm]
  · rw [if_neg h, if_pos (not_lt.1 h)]

/-- What the readings of a load are to be for a power at a voltage. -/
private def agree (u p : K) (r : UserLoad.Load K × Outcome) : Prop :=
  r.2 = .ok ∧ r.1.power = p ∧ r.1.current * u = p ∧ (0 < p → r.1.res * p = u ^ 2) ∧ (p = 0 → r.1.current = 0 ∧ r.1.res = 10 ^ 8)

private theorem ohm_agree (u r : K) (hu : 0 < u) (hr : 0 < r) (l : UserLoad.Load K) (hl : l.voltage = u)
    (hlr : l.res = r) : agree u (u ^ 2 / r) (ohm l) := by
  unfold ohm agree
  simp only
  rw [hlr, if_pos hr.le, if_neg hr.ne', hl]
  have hp : 0 < u ^ 2 / r := by positivity
  refine ⟨rfl, by rw [pow_two], ?_, fun _ => ?_, fun h => absurd h hp.ne'⟩
  · simp only; field_simp
  · simp only; field_simp

private theorem draw_agree (u p : K) (hu : 0 < u) (hp : 0 ≤ p) (l : UserLoad.Load K) (hl : l.voltage = u) (hlu : l.least < u)
    (hres : l.res = 10 ^ 8) : agree u p (draw p l) := by
  unfold draw agree
  rw [if_neg (by rw [hl]; exact hu.ne')]
  simp only
  have hm : max l.voltage (99 / 100 * l.least) = u := by
    rw [hl]; exact max_eq_left (by linarith)
  rcases hp.lt_or_eq with h | h
  · rw [if_pos h, hm]
    refine ⟨rfl, rfl, ?_, fun _ => ?_, fun h' => absurd h' h.ne'⟩
    · simp only [hl]; field_simp
    · simp only; field_simp
  · rw [← h, if_neg (lt_irrefl _), if_neg (lt_irrefl _)]
    refine ⟨rfl, rfl, by simp, fun h' => absurd h' (lt_irrefl _), fun _ => ⟨by simp, hres⟩⟩

private theorem step_agree (v : K) (l : UserLoad.Load K) (h : c93Sane l) :
    agree (c93volts v l) (c93demand (c93volts v l) l) (UserLoad.step v l) := by
  obtain ⟨h0, hi, hp, hn⟩ := h
  have hv : (baseStep v l).voltage = c93volts v l := base_seen v l
  generalize hu : c93volts v l = u at hv ⊢
  have hval : (baseStep v l).valid = decide (l.least < u) := by
    rw [← hv]; rfl
  have hnone : agree u 0 (baseStep v l, Outcome.ok) :=
    ⟨rfl, rfl, by show (0 : K) * u = 0; ring, fun h => absurd h (lt_irrefl _), fun _ => ⟨rfl, rfl⟩⟩
  by_cases hlu : l.least < u
  · have hup : 0 < u := lt_of_le_of_lt h0 hlu
    have hval' : (baseStep v l).valid = true := by rw [hval]; simpa using hlu
    unfold c93demand UserLoad.step
    rw [if_neg (not_le.2 hlu)]
    cases hk : l.kind with
    | resistive =>
      simp only
      unfold resistive
      rw [if_pos hval']
      have e1 : (baseStep v l).overI = l.overI := rfl
      have e2 : (baseStep v l).overP = l.overP := rfl
      have e3 : (baseStep v l).mode = l.mode := rfl
      have e4 : (baseStep v l).normal = l.normal := rfl
      have e5 : (baseStep v l).standby = l.standby := rfl
      rw [e1, e2, e3, e4, e5]
      cases ho : l.overI with
      | some i =>
        simp only
        rw [if_pos (hi i ho)]
        by_cases hz : i = 0
        · rw [if_pos hz, if_pos hz]
          exact ohm_agree u (10 ^ 8) hup (by positivity) _ hv rfl
        · rw [if_neg hz, if_neg hz]
          have hip : 0 < i := lt_of_le_of_ne (hi i ho) (Ne.symm hz)
          have e : u ^ 2 / (u / i) = u * i := by field_simp
          rw [← e]
          exact ohm_agree u (u / i) hup (by positivity) _ hv (by show (baseStep v l).voltage / i = u / i; rw [hv])
      | none =>
        cases hq : l.overP with
        | some p =>
          simp only
          rw [if_pos (hp p hq)]
          by_cases hz : p = 0
          · rw [if_pos hz, if_pos hz]
            exact ohm_agree u (10 ^ 8) hup (by positivity) _ hv rfl
          · rw [if_neg hz, if_neg hz]
            have hip : 0 < p := lt_of_le_of_ne (hp p hq) (Ne.symm hz)
            have e : u ^ 2 / (u * u / p) = p := by field_simp
            have h := ohm_agree u (u * u / p) hup (by positivity)
              { baseStep v l with res := (baseStep v l).voltage * (baseStep v l).voltage / p } hv
              (by show (baseStep v l).voltage * (baseStep v l).voltage / p = u * u / p; rw [hv])
            rw [e] at h
            have e' : ({ baseStep v l with res := (baseStep v l).voltage * (baseStep v l).voltage / p } : UserLoad.Load K)
              = { baseStep v l with
                  overI := none
                  overP := some p
                  mode := l.mode
                  normal := l.normal
                  standby := l.standby
                  res := (baseStep v l).voltage * (baseStep v l).voltage / p } := by
              rw [← ho, ← hq]; rfl
            rw [e'] at h
            exact h
        | none =>
          cases hm : l.mode with
          | off => exact hnone
          | on =>
            simp only
            rw [modeRes_eq]
            exact ohm_agree u _ hup (ohms_pos _) _ hv rfl
          | standby =>
            simp only
            rw [modeRes_eq]
            exact ohm_agree u _ hup (ohms_pos _) _ hv rfl
    | power =>
      obtain ⟨hn1, hn2⟩ := hn hk
      simp only
      unfold constant
      rw [if_pos hval']
      have e1 : (baseStep v l).overI = l.overI := rfl
      have e2 : (baseStep v l).overP = l.overP := rfl
      have e3 : (baseStep v l).mode = l.mode := rfl
      have e4 : (baseStep v l).normal = l.normal := rfl
      have e5 : (baseStep v l).standby = l.standby := rfl
      rw [e1, e2, e3, e4, e5]
      have hd : ∀ p : K, 0 ≤ p → agree u p (draw p (baseStep v l)) := fun p h => draw_agree u p hup h _ hv hlu rfl
      cases ho : l.overI with
      | some i =>
        simp only
        rw [if_pos (hi i ho), hv]
        exact hd _ (mul_nonneg hup.le (hi i ho))
      | none =>
        cases hq : l.overP with
        | some p =>
          simp only
          rw [if_pos (hp p hq)]
          exact hd _ (hp p hq)
        | none =>
          cases hm : l.mode with
          | off => exact hnone
          | on => exact hd _ hn1
          | standby => exact hd _ hn2
  · have hval' : (baseStep v l).valid = false := by rw [hval]; simpa using hlu
    have hd : c93demand u l = 0 := by unfold c93demand; rw [if_pos (not_lt.1 hlu)]
    rw [hd]
    unfold UserLoad.step
    cases l.kind with
    | resistive =>
      simp only
      unfold resistive
      rw [hval']
      exact hnone
    | power =>
      simp only
      unfold constant
      rw [hval']
      exact hnone

/-- A load draws what it is meant to, and its current and its resistance agree with its power and its voltage. -/
theorem c93_draws (v : K) (l : UserLoad.Load K) (h : c93Sane l) :
    (UserLoad.step v l).2 = .ok ∧ (UserLoad.step v l).1.power = c93demand (c93volts v l) l ∧
      (UserLoad.step v l).1.current * c93volts v l = (UserLoad.step v l).1.power ∧
      (0 < (UserLoad.step v l).1.power →
        (UserLoad.step v l).1.res * (UserLoad.step v l).1.power = c93volts v l ^ 2) ∧
      ((UserLoad.step v l).1.power = 0 → (UserLoad.step v l).1.current = 0 ∧ (UserLoad.step v l).1.res = 10 ^ 8) := by
  obtain ⟨a1, a2, a3, a4, a5⟩ := step_agree v l h
  rw [a2]
  exact ⟨a1, rfl, a3, a4, a5⟩

private theorem demand_nonneg (u : K) (l : UserLoad.Load K) (h : c93Sane l) : 0 ≤ c93demand u l := by
  obtain ⟨h0, hi, hp, hn⟩ := h
  unfold c93demand
  split
  · exact le_refl _
  · rename_i hlu
    have hu : 0 < u := lt_of_le_of_lt h0 (not_le.1 hlu)
    split
    · rename_i i _ hk ho
      exact mul_nonneg hu.le (hi _ ho)
    · rename_i p _ hk ho hq
      exact hp _ hq
    · rename_i hk _ _ _
      exact (hn hk).1
    · rename_i hk _ _ _
      exact (hn hk).2
    · rename_i i _ hk ho
      split
      · positivity
      · exact mul_nonneg hu.le (hi _ ho)
    · rename_i p _ hk ho hq
      split
      · positivity
      · exact hp _ hq
    · have := ohms_pos l.normal; positivity
    · have := ohms_pos l.standby; positivity
    · exact le_refl _

/-- A negative override of a load with power is refused, and the load draws nothing. -/
theorem c93_throws (v : K) (l : UserLoad.Load K) (hv : l.least < c93volts v l)
    (h : (∃ i, l.overI = some i ∧ i < 0) ∨ (l.overI = none ∧ ∃ p, l.overP = some p ∧ p < 0)) :
    (UserLoad.step v l).2 = .threw ∧ (UserLoad.step v l).1.power = 0 ∧ (UserLoad.step v l).1.current = 0 ∧
      (UserLoad.step v l).1.res = 10 ^ 8 := by
  have hval' : (baseStep v l).valid = true := by
    have : (baseStep v l).valid = decide (l.least < (baseStep v l).voltage) := rfl
    rw [this, base_seen]
    simpa using hv
  have e1 : (baseStep v l).overI = l.overI := rfl
  have e2 : (baseStep v l).overP = l.overP := rfl
  unfold UserLoad.step
  rcases h with ⟨i, h1, h2⟩ | ⟨h1, p, h2, h3⟩
  · cases l.kind with
    | resistive =>
      simp only
      unfold resistive
      rw [if_pos hval', e1, h1]
      simp only
      rw [if_neg (not_le.2 h2)]
      exact ⟨rfl, rfl, rfl, rfl⟩
    | power =>
      simp only
      unfold constant
      rw [if_pos hval', e1, h1]
      simp only
      rw [if_neg (not_le.2 h2)]
      exact ⟨rfl, rfl, rfl, rfl⟩
  · cases l.kind with
    | resistive =>
      simp only
      unfold resistive
      rw [if_pos hval', e1, h1, e2, h2]
      simp only
      rw [if_neg (not_le.2 h3)]
      exact ⟨rfl, rfl, rfl, rfl⟩
    | power =>
      simp only
      unfold constant
      rw [if_pos hval', e1, h1, e2, h2]
      simp only
      rw [if_neg (not_le.2 h3)]
      exact ⟨rfl, rfl, rfl, rfl⟩

/-! ## Fuses -/

private theorem step_blown (v : K) (l : UserLoad.Load K) : (UserLoad.step v l).1.blown = (l.blow || l.blown) := by
  have ho : ∀ l : UserLoad.Load K, (ohm l).1.blown = l.blown := by
    intro l; unfold ohm; split <;> rfl
  have hd : ∀ (p : K) (l : UserLoad.Load K), (draw p l).1.blown = l.blown := by
    intro p l
    unfold draw
    split
    · rfl
    · simp only
      split
      · rfl
      · split <;> rfl
  have hb : (baseStep v l).blown = (l.blow || l.blown) := rfl
  rw [← hb]
  unfold UserLoad.step
  cases l.kind with
  | resistive =>
    simp only
    unfold resistive
    split
    · split
      · split
        · rw [ho]
        · rfl
      · split
        · split
          · rw [ho]
          · rfl
        · split
          · rfl
          · rw [ho]
          · rw [ho]
    · rfl
  | power =>
    simp only
    unfold constant
    split
    · split
      · split
        · rw [hd]
        · rfl
      · split
        · split
          · rw [hd]
          · rfl
        · split
          · rfl
          · rw [hd]
          · rw [hd]
    · rfl

/-- The fuse check blows the fuse exactly if there is one, not blown, and the current at the given voltage is above its limit. -/
theorem c93_fuse_check (v : K) (l : UserLoad.Load K) :
    ((updateFuse v l).2 = true ↔ 0 < l.fuseLimit ∧ l.blown = false ∧ l.fuseLimit < v / max l.res dblEps) ∧
      (updateFuse v l).1 = { l with blown := l.blown || (updateFuse v l).2 } := by
  unfold updateFuse
  by_cases h : 0 < l.fuseLimit ∧ l.blown = false
  · rw [if_pos h]
    by_cases h2 : l.fuseLimit < v / max l.res dblEps
    · rw [if_pos h2]
      exact ⟨⟨fun _ => ⟨h.1, h.2, h2⟩, fun _ => rfl⟩, by simp⟩
    · rw [if_neg h2]
      refine ⟨⟨fun h' => absurd h' (by simp), fun h' => absurd h'.2.2 h2⟩, by simp⟩
  · rw [if_neg h]
    refine ⟨⟨fun h' => absurd h' (by simp), fun h' => absurd ⟨h'.1, h'.2.1⟩ h⟩, by simp⟩

/-- A blown fuse stays blown until it is reset, and without magic power the load behind it draws nothing. -/
theorem c93_fuse (es : List (UserLoad.Event K)) (hes : UserLoad.Event.resetFuse ∉ es) (l : UserLoad.Load K) (hb : l.blown = true) :
    (handleAll es l).blown = true ∧
      ∀ v, (handleAll es l).magic = none → c93Sane (handleAll es l) →
        (UserLoad.step v (handleAll es l)).1.power = 0 ∧ (UserLoad.step v (handleAll es l)).1.current = 0 := by
  have h1 : (handleAll es l).blown = true := by
    unfold handleAll
    induction es generalizing l with
    | nil => exact hb
    | cons e es ih =>
      rw [List.foldl_cons]
      apply ih (fun h => hes (List.mem_cons_of_mem _ h))
      cases e with
      | step v =>
        show (UserLoad.step v l).1.blown = true
        rw [step_blown, hb, Bool.or_true]
      | check v =>
        show (updateFuse v l).1.blown = true
        rw [(c93_fuse_check v l).2]
        simp [hb]
      | resetFuse => exact absurd List.mem_cons_self hes
      | _ => exact hb
  refine ⟨h1, fun v hm hs => ?_⟩
  obtain ⟨-, d2, d3, d4, d5⟩ := c93_draws v _ hs
  have hz : c93demand (c93volts v (handleAll es l)) (handleAll es l) = 0 := by
    have : c93volts v (handleAll es l) = 0 := by
      unfold c93volts
      rw [hm]
      simp [h1]
    rw [this]
    unfold c93demand
    rw [if_pos hs.1]
  rw [hz] at d2
  exact ⟨d2, (d5 d2).1⟩

/-- Magic power feeds a load behind a blown fuse. -/
theorem c93_magic (v m : K) (l : UserLoad.Load K) (h : c93Sane l) (hm : l.magic = some m) :
    (UserLoad.step v l).1.power = c93demand m l := by
  have : c93volts v l = m := by unfold c93volts; rw [hm]
  rw [(c93_draws v l h).2.1, this]

/-- A check of the switch's fuses finds one to blow exactly if there is one, and then blows no other. -/
theorem c93_fuses (v : K) (ls : List (UserLoad.Load K)) :
    ((updateFuses v ls).2 = true ↔ ∃ l ∈ ls, (updateFuse v l).2 = true) ∧
      ((updateFuses v ls).2 = false → (updateFuses v ls).1 = ls) ∧
      ((updateFuses v ls).2 = true → ∃ a l b, ls = a ++ l :: b ∧ (∀ x ∈ a, (updateFuse v x).2 = false) ∧
        (updateFuse v l).2 = true ∧ (updateFuses v ls).1 = a ++ { l with blown := true } :: b) := by
  induction ls with
  | nil => exact ⟨⟨fun h => absurd h (by simp [updateFuses]), fun ⟨_, h, _⟩ => absurd h (by simp)⟩, fun _ => rfl,
      fun h => absurd h (by simp [updateFuses])⟩
  | cons l ls ih =>
    obtain ⟨i1, i2, i3⟩ := ih
    have hl := (c93_fuse_check v l).2
    unfold updateFuses
    by_cases h : (updateFuse v l).2 = true
    · rw [h] at hl
      simp only [h, if_true]
      refine ⟨⟨fun _ => ⟨l, List.mem_cons_self, h⟩, fun _ => trivial⟩, fun h' => absurd h' (by simp), fun _ => ?_⟩
      refine ⟨[], l, ls, rfl, fun x hx => absurd hx (by simp), h, ?_⟩
      rw [hl]
      simp
    · have hf : (updateFuse v l).2 = false := by simpa using h
      rw [hf] at hl
      have hl' : (updateFuse v l).1 = l := by rw [hl]; simp
      simp only [hf, Bool.false_eq_true, if_false, hl']
      refine ⟨?_, fun h' => by rw [i2 h'], fun h' => ?_⟩
      · rw [i1]
        constructor
        · rintro ⟨x, hx, hx2⟩
          exact ⟨x, List.mem_cons_of_mem _ hx, hx2⟩
        · rintro ⟨x, hx, hx2⟩
          rcases List.mem_cons.1 hx with rfl | hx
          · exact absurd hx2 h
          · exact ⟨x, hx, hx2⟩
      · obtain ⟨a, y, b, e1, e2, e3, e4⟩ := i3 h'
        refine ⟨l :: a, y, b, by rw [e1]; rfl, ?_, e3, by rw [e4]; rfl⟩
        intro x hx
        rcases List.mem_cons.1 hx with rfl | hx
        · exact hf
        · exact e2 x hx

/-! ## Duty cycle -/

private theorem duty_step (d : Duty K) (dt : K) (hp : 0 < d.period) (s : K × UserLoad.Mode) :
    d.step dt s = (d.tick dt s.1, if d.fraction < d.tick dt s.1 / d.period then .off else .on) := by
  unfold Duty.step
  rw [if_pos hp]

/-- With steps of one length the cycle has the first number of steps that is longer than the period, and the load is on in the steps up to
and with the fraction of the period. -/
theorem c93_duty (d : Duty K) (dt : K) (hdt : 0 < dt) (hp : 0 < d.period) (m j : Nat) (hm : (m : K) * dt ≤ d.period)
    (hm' : d.period < ((m : K) + 1) * dt) (hj : (j : K) * dt ≤ d.fraction * d.period)
    (hj' : d.fraction * d.period < ((j : K) + 1) * dt) (mode : UserLoad.Mode) (n : Nat) :
    ((d.step dt)^[n] (0, mode)).1 = ((n % (m + 1) : Nat) : K) * dt ∧
      (0 < n → (((d.step dt)^[n] (0, mode)).2 = .on ↔ n % (m + 1) ≤ j) ∧
        (((d.step dt)^[n] (0, mode)).2 = .off ↔ j < n % (m + 1))) := by
  have key : ∀ n : Nat, ((d.step dt)^[n] (0, mode)).1 = ((n % (m + 1) : Nat) : K) * dt := by
    intro n
    induction n with
    | zero => simp
    | succ n ih =>
      rw [Function.iterate_succ_apply', duty_step d dt hp]
      simp only
      rw [ih]
      unfold Duty.tick
      have hlt : n % (m + 1) < m + 1 := Nat.mod_lt _ (by omega)
      by_cases h : n % (m + 1) = m
      · rw [h, if_pos (by linarith)]
        have : (n + 1) % (m + 1) = 0 := by
          rw [Nat.add_mod, h]
          rcases Nat.eq_zero_or_pos m with rfl | hm0
          · simp
          · rw [Nat.mod_eq_of_lt (a := 1) (by omega), Nat.mod_self]
        rw [this]
        simp
      · have h2 : (n + 1) % (m + 1) = n % (m + 1) + 1 := by
          rw [Nat.add_mod]
          have hm0 : 0 < m := by omega
          rw [Nat.mod_eq_of_lt (a := 1) (by omega), Nat.mod_eq_of_lt (by omega)]
        have h3 : ((n % (m + 1) : Nat) : K) + 1 ≤ m := by
          have : n % (m + 1) + 1 ≤ m := by omega
          exact_mod_cast this
        have h4 := mul_le_mul_of_nonneg_right h3 hdt.le
        rw [if_neg (by linarith), h2]
        push_cast
        ring
  refine ⟨key n, fun hn => ?_⟩
  obtain ⟨k, rfl⟩ : ∃ k, n = k + 1 := ⟨n - 1, by omega⟩
  have hmode : ((d.step dt)^[k + 1] (0, mode)).2
      = if d.fraction < ((d.step dt)^[k + 1] (0, mode)).1 / d.period then UserLoad.Mode.off else .on := by
    rw [Function.iterate_succ_apply', duty_step d dt hp]
  have hiff : d.fraction < (((k + 1) % (m + 1) : Nat) : K) * dt / d.period ↔ j < (k + 1) % (m + 1) := by
    rw [lt_div_iff₀ hp]
    constructor
    · intro h
      by_contra h'
      have h2 : (((k + 1) % (m + 1) : Nat) : K) ≤ j := by exact_mod_cast not_lt.1 h'
      have := mul_le_mul_of_nonneg_right h2 hdt.le
      linarith
    · intro h
      have h2 : (j : K) + 1 ≤ (((k + 1) % (m + 1) : Nat) : K) := by exact_mod_cast h
      have := mul_le_mul_of_nonneg_right h2 hdt.le
      linarith
  rw [hmode, key (k + 1)]
  by_cases h : d.fraction < (((k + 1) % (m + 1) : Nat) : K) * dt / d.period
  · rw [if_pos h]
    have := hiff.1 h
    exact ⟨⟨fun h' => absurd h' (by simp), fun h' => absurd this (not_lt.2 h')⟩, ⟨fun _ => this, fun _ => rfl⟩⟩
  · rw [if_neg h]
    have h1 : ¬ j < (k + 1) % (m + 1) := fun h' => h (hiff.2 h')
    exact ⟨⟨fun _ => not_lt.1 h1, fun _ => rfl⟩, ⟨fun h' => absurd h' (by simp), fun h' => absurd h' h1⟩⟩

/-- A fraction of nothing leaves the load on in the first step of every cycle. -/
theorem c93_duty_none (d : Duty K) (dt : K) (hdt : 0 < dt) (hp : 0 < d.period) (hf : d.fraction = 0) (m : Nat)
    (hm : (m : K) * dt ≤ d.period) (hm' : d.period < ((m : K) + 1) * dt) (mode : UserLoad.Mode) (n : Nat) (hn : 0 < n) :
    ((d.step dt)^[n] (0, mode)).2 = .on ↔ (m + 1) ∣ n := by
  have := ((c93_duty d dt hdt hp m 0 hm hm' (by rw [hf]; simp) (by rw [hf]; simp [hdt]) mode n).2 hn).1
  rw [this, Nat.le_zero, Nat.dvd_iff_mod_eq_zero]

/-! ## The bus -/

private theorem cap_id (M x : K) (h : x = 0 ∨ minCond ≤ x) (hM : x ≤ M) : cap M x = x := by
  unfold cap
  rw [if_neg (not_lt.2 hM)]
  rcases h with h | h
  · rw [h]
    split <;> rfl
  · rw [if_neg (not_lt.2 h)]

private theorem follow_near (a g : K) : |follow a g - g| ≤ dblEps := by
  unfold follow
  split
  · rw [sub_self, abs_zero]; exact dblEps_pos.le
  · rename_i h; exact not_lt.1 h

/-- The conductance of the loads that draw nothing. -/
def c93idle (l : UserLoad.Load K) : K := if l.kind = .resistive ∧ l.power = 0 then 1 / 10 ^ 8 else 0

private theorem part_eq (v : K) (hv : 0 < v) (l : UserLoad.Load K) (h : c93Sane l) (hm : l.magic = none)
    (hr : dblEps ≤ (UserLoad.step v l).1.res ∧ (UserLoad.step v l).1.res ≤ 10 ^ 8) (hk : (UserLoad.step v l).1.kind = l.kind) :
    v * resistPart (UserLoad.step v l).1 + powerPart (UserLoad.step v l).1 / v
      = (UserLoad.step v l).1.current + v * c93idle (UserLoad.step v l).1 := by
  obtain ⟨-, d2, d3, d4, d5⟩ := c93_draws v l h
  have hmin : (1 : K) / minCond = 10 ^ 8 := by unfold minCond; rw [one_div_one_div]
  have hpn : 0 ≤ (UserLoad.step v l).1.power := by rw [d2]; exact demand_nonneg _ l h
  have hres : 0 < (UserLoad.step v l).1.res := lt_of_lt_of_le dblEps_pos hr.1
  have hu : c93volts v l = v ∨ (UserLoad.step v l).1.power = 0 := by
    have e : c93volts v l = if l.blow = true ∨ l.blown = true then 0 else v := by unfold c93volts; rw [hm]
    by_cases hb : l.blow = true ∨ l.blown = true
    · right
      rw [if_pos hb] at e
      rw [d2, e]
      unfold c93demand
      rw [if_pos h.1]
    · left
      rw [if_neg hb] at e
      exact e
  unfold resistPart powerPart c93idle
  rw [hmin]
  cases hkk : l.kind with
  | power =>
    rw [hkk] at hk
    rw [if_pos hk, if_pos hk, if_neg (by rw [hk]; simp), mul_zero, zero_add, add_zero]
    rcases hu with hu | hu
    · rw [hu] at d3
      rw [← d3, mul_div_cancel_right₀ _ hv.ne']
    · rw [hu, (d5 hu).1, zero_div]
  | resistive =>
    rw [hkk] at hk
    have hne : ¬ (UserLoad.step v l).1.kind = .power := by rw [hk]; simp
    rw [if_neg hne, if_neg hne, if_pos hr, zero_div, add_zero]
    by_cases hz : (UserLoad.step v l).1.power = 0
    · rw [if_pos ⟨hk, hz⟩, (d5 hz).1, (d5 hz).2, zero_add]
    · rw [if_neg (fun h => hz h.2), mul_zero, add_zero]
      have hpp : 0 < (UserLoad.step v l).1.power := lt_of_le_of_ne hpn (Ne.symm hz)
      have hu' : c93volts v l = v := hu.resolve_right hz
      rw [hu'] at d3 d4
      have e4 := d4 hpp
      rw [← d3] at e4
      have : v * ((UserLoad.step v l).1.res * (UserLoad.step v l).1.current) = v * v := by linear_combination e4
      have h2 := mul_left_cancel₀ hv.ne' this
      rw [mul_one_div, div_eq_iff hres.ne']
      linarith

private theorem step_kind (v : K) (l : UserLoad.Load K) : (UserLoad.step v l).1.kind = l.kind := by
  have ho : ∀ l : UserLoad.Load K, (ohm l).1.kind = l.kind := by
    intro l; unfold ohm; split <;> rfl
  have hd : ∀ (p : K) (l : UserLoad.Load K), (draw p l).1.kind = l.kind := by
    intro p l
    unfold draw
    split
    · rfl
    · simp only
      split
      · rfl
      · split <;> rfl
  have hb : (baseStep v l).kind = l.kind := rfl
  unfold UserLoad.step
  split
  · unfold resistive
    split
    · split
      · split
        · rw [ho]; exact hb
        · exact hb
      · split
        · split
          · rw [ho]; exact hb
          · exact hb
        · split
          · exact hb
          · rw [ho]; exact hb
          · rw [ho]; exact hb
    · exact hb
  · unfold constant
    split
    · split
      · split
        · rw [hd]; exact hb
        · exact hb
      · split
        · split
          · rw [hd]; exact hb
          · exact hb
        · split
          · exact hb
          · rw [hd]; exact hb
          · rw [hd]; exact hb
    · exact hb

private theorem sums_eq (v : K) (hv : 0 < v) (ls : List (UserLoad.Load K))
    (h : ∀ l ∈ ls, c93Sane l ∧ l.magic = none ∧ dblEps ≤ (UserLoad.step v l).1.res ∧ (UserLoad.step v l).1.res ≤ 10 ^ 8) :
    v * ((ls.map (fun l => (UserLoad.step v l).1)).map resistPart).sum
        + ((ls.map (fun l => (UserLoad.step v l).1)).map powerPart).sum / v
      = ((ls.map (fun l => (UserLoad.step v l).1)).map UserLoad.Load.current).sum
        + v * ((ls.map (fun l => (UserLoad.step v l).1)).map c93idle).sum := by
  induction ls with
  | nil => simp
  | cons l ls ih =>
    have ih' := ih (fun x hx => h x (List.mem_cons_of_mem _ hx))
    obtain ⟨h1, h2, h3, h4⟩ := h l List.mem_cons_self
    have hp := part_eq v hv l h1 h2 ⟨h3, h4⟩ (step_kind v l)
    simp only [List.map_cons, List.sum_cons]
    rw [mul_add, add_div, mul_add]
    linear_combination hp + ih'

/-- The current that the bus takes from its node is that of its loads, but for the tolerance of two `DBL_EPSILON` of conductance, the
conductance of idle resistive loads and the bus's own. -/
theorem c93_bus (v : K) (hv : dblEps < v) (b : Bus K)
    (h : ∀ l ∈ b.loads, c93Sane l ∧ l.magic = none ∧ dblEps ≤ (UserLoad.step v l).1.res ∧ (UserLoad.step v l).1.res ≤ 10 ^ 8)
    (hR : ((b.loads.map (fun l => (UserLoad.step v l).1)).map resistPart).sum = 0 ∨
      1 / 10 ^ 8 ≤ ((b.loads.map (fun l => (UserLoad.step v l).1)).map resistPart).sum)
    (hRM : ((b.loads.map (fun l => (UserLoad.step v l).1)).map resistPart).sum ≤ b.maxCond)
    (hC : (b.step v false).total / (v * v) = 0 ∨ 1 / 10 ^ 8 ≤ (b.step v false).total / (v * v))
    (hCM : (b.step v false).total / (v * v) ≤ b.maxCond) :
    |(b.step v false).flux v - (((b.step v false).loads.map UserLoad.Load.current).sum
      + v * ((b.step v false).loads.map c93idle).sum + v * (10 ^ 7 * dblEps))| ≤ v * (2 * dblEps) := by
  have hv0 : 0 < v := lt_trans dblEps_pos hv
  have hs := sums_eq v hv0 b.loads h
  have e1 : (b.step v false).loads = b.loads.map (fun l => (UserLoad.step v l).1) := rfl
  have e2 : (b.step v false).total = ((b.loads.map (fun l => (UserLoad.step v l).1)).map powerPart).sum := rfl
  rw [e1]
  rw [e2] at hC hCM
  generalize hr : ((b.loads.map (fun l => (UserLoad.step v l).1)).map resistPart).sum = R at *
  generalize hp : ((b.loads.map (fun l => (UserLoad.step v l).1)).map powerPart).sum = P at *
  have e3 : (b.step v false).flux v
      = (follow b.activeR R + follow b.activeC (P / (v * v)) + dblEps / (1 / 10 ^ 7)) * v := by
    unfold Bus.flux Bus.step
    simp only [Bool.false_eq_true, if_false]
    rw [if_pos hv, hr, hp, cap_id b.maxCond R hR hRM, cap_id b.maxCond (P / (v * v)) hC hCM]
  rw [e3, ← hs]
  have e4 : (follow b.activeR R + follow b.activeC (P / (v * v)) + dblEps / (1 / 10 ^ 7)) * v
      - (v * R + P / v + v * (10 ^ 7 * dblEps))
      = v * ((follow b.activeR R - R) + (follow b.activeC (P / (v * v)) - P / (v * v))) := by
    field_simp
    ring
  rw [e4, abs_mul, abs_of_pos hv0]
  apply mul_le_mul_of_nonneg_left _ hv0.le
  have n1 := follow_near b.activeR R
  have n2 := follow_near b.activeC (P / (v * v))
  have := abs_add_le (follow b.activeR R - R) (follow b.activeC (P / (v * v)) - P / (v * v))
  linarith

private theorem cap_range (M x : K) (hM : 0 ≤ M) : 0 ≤ cap M x ∧ cap M x ≤ M := by
  unfold cap
  split
  · exact ⟨hM, le_refl _⟩
  · rename_i h
    split
    · exact ⟨le_refl _, hM⟩
    · rename_i h2
      have : (0 : K) < minCond := by unfold minCond; positivity
      exact ⟨by linarith, not_lt.1 h⟩

private theorem follow_range (a g M : K) (ha : 0 ≤ a ∧ a ≤ M) (hg : 0 ≤ g ∧ g ≤ M) : 0 ≤ follow a g ∧ follow a g ≤ M := by
  unfold follow
  split
  · exact hg
  · exact ha

/-- After any passes the admittance of the bus is between its own and twice the most conductance more, and the network is told of every
change of it. -/
theorem c93_bus_limits (ps : List (K × Bool)) (b : Bus K) (hM : 0 ≤ b.maxCond) (hR : 0 ≤ b.activeR ∧ b.activeR ≤ b.maxCond)
    (hC : 0 ≤ b.activeC ∧ b.activeC ≤ b.maxCond) (hA : b.admittance = b.activeR + b.activeC + dblEps / (1 / 10 ^ 7)) :
    10 ^ 7 * dblEps ≤ (ps.foldl (fun b p => b.step p.1 p.2) b).admittance ∧
      (ps.foldl (fun b p => b.step p.1 p.2) b).admittance ≤ 2 * b.maxCond + 10 ^ 7 * dblEps ∧
      ((ps.foldl (fun b p => b.step p.1 p.2) b).update = false →
        (ps.foldl (fun b p => b.step p.1 p.2) b).admittance = b.admittance) := by
  have hd : (dblEps : K) / (1 / 10 ^ 7) = 10 ^ 7 * dblEps := by field_simp
  have hup : ∀ (ps : List (K × Bool)) (b : Bus K), b.update = true → (ps.foldl (fun b p => b.step p.1 p.2) b).update = true := by
    intro ps
    induction ps with
    | nil => exact fun b h => h
    | cons p ps ih =>
      intro b h
      rw [List.foldl_cons]
      apply ih
      unfold Bus.step
      simp [h]
  induction ps generalizing b with
  | nil =>
    simp only [List.foldl_nil]
    rw [hA, hd]
    exact ⟨by linarith [hR.1, hC.1], by linarith [hR.2, hC.2], by intro _; trivial⟩
  | cons p ps ih =>
    rw [List.foldl_cons]
    have i := ih (b.step p.1 p.2) hM
      (follow_range _ _ _ hR (cap_range b.maxCond _ hM)) (follow_range _ _ _ hC (cap_range b.maxCond _ hM)) rfl
    refine ⟨i.1, i.2.1, fun hu => ?_⟩
    rw [i.2.2 hu]
    have hb : (b.step p.1 p.2).update = false := by
      by_contra h
      have : (b.step p.1 p.2).update = true := by simpa using h
      rw [hup ps _ this] at hu
      exact absurd hu (by simp)
    unfold Bus.step at hb ⊢
    simp only [Bool.or_eq_false_iff, decide_eq_false_iff_not] at hb
    simp only
    rw [hA]
    obtain ⟨⟨-, h1⟩, h2⟩ := hb
    unfold follow
    rw [if_neg h1, if_neg h2]

/-- A bus without voltage keeps the conductance of its constant power loads, though they draw nothing. -/
theorem c93_bus_stale (v : K) (hv : v ≤ dblEps) (b : Bus K) (isSealed : Bool) (h : b.constant = b.activeC)
    (h1 : 1 / 10 ^ 8 ≤ b.activeC) (h2 : b.activeC ≤ b.maxCond) :
    (b.step v isSealed).activeC = b.activeC ∧ (b.step v isSealed).constant = b.activeC := by
  have hc : (b.step v isSealed).constant = b.activeC := by
    unfold Bus.step
    simp only
    rw [if_neg (not_lt.2 hv), h, cap_id _ _ (Or.inr h1) h2]
  refine ⟨?_, hc⟩
  have : (b.step v isSealed).activeC = follow b.activeC (b.step v isSealed).constant := rfl
  rw [this, hc]
  unfold follow
  split <;> rfl

/-- The bus looks at no fuse: whatever its voltage and the limits, only the malfunction blows one. -/
theorem c93_bus_fuse (v : K) (isSealed : Bool) (b : Bus K) (h : ∀ l ∈ b.loads, l.blow = false ∧ l.blown = false) :
    ∀ l ∈ (b.step v isSealed).loads, l.blown = false := by
  intro l hl
  cases isSealed with
  | true => exact (h l hl).2
  | false =>
    have e1 : (b.step v false).loads = b.loads.map (fun l => (UserLoad.step v l).1) := rfl
    rw [e1] at hl
    obtain ⟨x, hx, rfl⟩ := List.mem_map.1 hl
    rw [step_blown, (h x hx).1, (h x hx).2]
    rfl

/-! ## Cases -/

private def lamp : UserLoad.Load ℚ :=
  { kind := .resistive, least := 98, fuseLimit := 5, normal := 20, standby := 1000, overI := none, overP := none, blow := false,
    magic := none, mode := .on, blown := false, voltage := 0, valid := true, current := 0, power := 0, res := 10 ^ 8 }

private def pump : UserLoad.Load ℚ := { lamp with kind := .power, normal := 600, standby := 60 }

private def bus : Bus ℚ :=
  { loads := [lamp, pump, { lamp with mode := .off }], maxCond := 100, total := 0, resist := 0, constant := 0, activeR := 0,
    activeC := 0, admittance := 0, update := false }

example : c93Sane lamp ∧ c93Sane pump := by
  refine ⟨⟨by decide +kernel, fun i h => by (cases h), fun i h => by (cases h), fun h => by (cases h)⟩,
    by decide +kernel, fun i h => by (cases h), fun i h => by (cases h), fun _ => by decide +kernel⟩

example : (UserLoad.step 120 lamp).1.current = 6 ∧ (UserLoad.step 120 lamp).1.power = 720 ∧ (UserLoad.step 90 lamp).1.power = 0 ∧
    (UserLoad.step 120 pump).1.current = 5 ∧ (UserLoad.step 120 pump).1.res = 24 := by decide +kernel

/-- The lamp, the pump and, though it is off, the third load. -/
example : (bus.step 120 false).admittance = 1 / 20 + 1 / 10 ^ 8 + 600 / 120 ^ 2 + 10 ^ 7 * dblEps := by decide +kernel

/-- Two fuses are beyond their limit, and a check blows one. -/
theorem c93_one_fuse : ((updateFuses 120 [(UserLoad.step 120 lamp).1, (UserLoad.step 120 lamp).1]).1.map UserLoad.Load.blown)
    = [true, false] := by decide +kernel

/-- A limit below nothing is accepted, and a load without voltage then divides by it. -/
theorem c93_no_voltage : (UserLoad.step 0 { pump with least := -1 }).2 = .divZero := by decide +kernel

/-- A current override below a hundred-millionth of the voltage is reported by the load and not seen by the bus. -/
theorem c93_small_override :
    let b := (({ bus with loads := [{ lamp with overI := some (1 / 10 ^ 6) }] } : Bus ℚ)).step 120 false
    (b.loads.map UserLoad.Load.current).sum = 1 / 10 ^ 6 ∧ b.flux 120 = 120 * (10 ^ 7 * dblEps) := by decide +kernel

/-- A fraction of a half of ten seconds, in steps of three: on in two of four steps. -/
example : (3 : ℚ) * 3 ≤ 10 ∧ (10 : ℚ) < (3 + 1) * 3 ∧ (1 : ℚ) * 3 ≤ 1 / 2 * 10 ∧ (1 / 2 : ℚ) * 10 < (1 + 1) * 3 ∧
    (List.range 8).map (fun n => decide ((((Duty.mk (1 / 2 : ℚ) 10).step 3)^[n + 1] (0, .off)).2 = .on))
      = [true, false, false, true, true, false, false, true] := by decide +kernel

/-- A load of a negative power, in a mode that has it, is refused. -/
theorem c93_negative (v : K) (l : UserLoad.Load K) (hk : l.kind = .power) (h0 : 0 ≤ l.least) (hv : l.least < c93volts v l)
    (hi : l.overI = none) (hp : l.overP = none) (h : (l.mode = .on ∧ l.normal < 0) ∨ (l.mode = .standby ∧ l.standby < 0)) :
    (UserLoad.step v l).2 = .threw ∧ (UserLoad.step v l).1.res = 10 ^ 8 := by
  have hpos : 0 < c93volts v l := lt_of_le_of_lt h0 hv
  have hb := base_seen v l
  have hval : (baseStep v l).valid = true := by
    have : (baseStep v l).valid = decide (l.least < (baseStep v l).voltage) := rfl
    rw [this, base_seen]
    simpa using hv
  have hdraw : ∀ p : K, p < 0 → (draw p (baseStep v l)).2 = .threw ∧ (draw p (baseStep v l)).1.res = 10 ^ 8 := by
    intro p hneg
    unfold draw
    rw [if_neg (by rw [hb]; exact hpos.ne')]
    simp only
    rw [if_neg (not_lt.2 hneg.le), if_pos hneg]
    exact ⟨rfl, rfl⟩
  have e1 : (baseStep v l).overI = none := hi
  have e2 : (baseStep v l).overP = none := hp
  have es : UserLoad.step v l = UserLoad.constant (baseStep v l) := by
    unfold UserLoad.step; rw [hk]
  rw [es]
  unfold UserLoad.constant
  rw [if_pos hval, e1, e2]
  rcases h with ⟨hm, hh⟩ | ⟨hm, hh⟩
  · have e3 : (baseStep v l).mode = .on := hm
    simp only [e3]
    exact hdraw _ hh
  · have e3 : (baseStep v l).mode = .standby := hm
    simp only [e3]
    exact hdraw _ hh

example : (UserLoad.step 120 { pump with normal := -5 }).2 = .threw := by decide +kernel

/-- A sealed bus leaves its loads alone and takes no power and, at a voltage, no more than the least conductance and the tolerances. -/
theorem c93_sealed (v : K) (hv : dblEps < v) (b : Bus K) (hM : 0 ≤ b.maxCond) :
    (b.step v true).loads = b.loads ∧ (b.step v true).total = 0 ∧ (b.step v true).resist = 0 ∧ (b.step v true).constant = 0
      ∧ |(b.step v true).activeR| ≤ dblEps ∧ |(b.step v true).activeC| ≤ dblEps := by
  have hc : cap b.maxCond (0 : K) = 0 := by
    unfold cap minCond
    rw [if_neg (not_lt.2 hM), if_pos (by positivity)]
  have h1 : (b.step v true).resist = 0 := by
    show cap b.maxCond (if true = true then 0 else _) = 0
    rw [if_pos rfl, hc]
  have h2 : (b.step v true).constant = 0 := by
    show cap b.maxCond (if dblEps < v then (if true = true then 0 else _) / (v * v) else b.constant) = 0
    rw [if_pos hv, if_pos rfl, zero_div, hc]
  have h3 : (b.step v true).activeR = follow b.activeR (b.step v true).resist := rfl
  have h4 : (b.step v true).activeC = follow b.activeC (b.step v true).constant := rfl
  refine ⟨rfl, rfl, h1, h2, ?_, ?_⟩
  · have := follow_near b.activeR (b.step v true).resist
    rw [h3]; rw [h1, sub_zero] at this; rw [h1]; exact this
  · have := follow_near b.activeC (b.step v true).constant
    rw [h4]; rw [h2, sub_zero] at this; rw [h2]; exact this

end Gunns.Props
