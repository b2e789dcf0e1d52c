import Verif.Elect.SwitchUtil
import Mathlib.Tactic.Linarith
import Mathlib.Tactic.FieldSimp
import Mathlib.Tactic.Ring

/-!
# C94: the first switch utility
-/

set_option linter.unusedSectionVars false

namespace Gunns.Props

open Gunns Gunns.SwUtil

variable {K : Type*} [Field K] [LinearOrder K] [IsStrictOrderedRing K]

/-- A switch of the default kind: 0.02 ohm, limits of 3.5 and -0.1 A, closed on command. -/
private def sw : Switch ℚ where
  failOpen := false
  failClosed := false
  failRes := false
  percent := 0
  failPos := false
  failPosValue := 7 / 2
  failNeg := false
  failNegValue := -1 / 10
  ignore := false
  actual := 0
  sensed := 0
  voltageIn := 0
  power := 0
  cmd := true
  closed := true
  pos := false
  neg := false
  ext := false
  waiting := false
  just := false
  reset := false
  priority := 3
  defRes := 1 / 50
  res := 1 / 50
  prot := true
  defPos := 7 / 2
  posLimit := 7 / 2
  defNeg := -1 / 10
  negLimit := -1 / 10
  code := 1

private theorem state_keeps (b : Bool) (s : Switch K) :
    let t := updateState b s
    (t.posLimit = (if s.failPos then s.failPosValue else s.defPos) ∧ t.negLimit = (if s.failNeg then s.failNegValue else s.defNeg)
      ∧ t.prot = (if s.ignore then false else s.prot))
    ∧ (t.defRes = (if s.defRes ≤ 0 then 1 / condLimit else s.defRes)
      ∧ t.percent = (if s.failRes then scaled s.percent else s.percent)
      ∧ t.res = (if s.failRes then (if s.defRes ≤ 0 then 1 / condLimit else s.defRes) * scaled s.percent
        else (if s.defRes ≤ 0 then 1 / condLimit else s.defRes)))
    ∧ t.failRes = s.failRes ∧ t.failOpen = s.failOpen ∧ t.failClosed = s.failClosed ∧ t.failPos = s.failPos ∧ t.failNeg = s.failNeg
    ∧ t.failPosValue = s.failPosValue ∧ t.failNegValue = s.failNegValue ∧ t.defPos = s.defPos ∧ t.defNeg = s.defNeg
    ∧ t.cmd = (b && s.cmd) := by
  simp only [updateState]
  unfold resets
  split <;> cases b <;>
    exact ⟨⟨rfl, rfl, rfl⟩, ⟨rfl, rfl, rfl⟩, rfl, rfl, rfl, rfl, rfl, rfl, rfl, rfl, rfl, rfl⟩

private structure Same (s t : Switch K) : Prop where
  posLimit : t.posLimit = s.posLimit
  negLimit : t.negLimit = s.negLimit
  prot : t.prot = s.prot
  failClosed : t.failClosed = s.failClosed
  failOpen : t.failOpen = s.failOpen
  priority : t.priority = s.priority
  ext : t.ext = s.ext
  cmd : t.cmd = s.cmd
  reset : t.reset = s.reset
  failPos : t.failPos = s.failPos
  failNeg : t.failNeg = s.failNeg
  failPosValue : t.failPosValue = s.failPosValue
  failNegValue : t.failNegValue = s.failNegValue
  defPos : t.defPos = s.defPos
  defNeg : t.defNeg = s.defNeg
  res : t.res = s.res

private theorem Same.trans {a b c : Switch K} (h : Same a b) (k : Same b c) : Same a c := by
  constructor
  · exact k.posLimit.trans h.posLimit
  · exact k.negLimit.trans h.negLimit
  · exact k.prot.trans h.prot
  · exact k.failClosed.trans h.failClosed
  · exact k.failOpen.trans h.failOpen
  · exact k.priority.trans h.priority
  · exact k.ext.trans h.ext
  · exact k.cmd.trans h.cmd
  · exact k.reset.trans h.reset
  · exact k.failPos.trans h.failPos
  · exact k.failNeg.trans h.failNeg
  · exact k.failPosValue.trans h.failPosValue
  · exact k.failNegValue.trans h.failNegValue
  · exact k.defPos.trans h.defPos
  · exact k.defNeg.trans h.defNeg
  · exact k.res.trans h.res

private theorem same_refl (s : Switch K) : Same s s := by constructor <;> rfl

private theorem same_trips (n : ℕ) (s : Switch K) : Same s (trips n s) := by
  have hp : ∀ u : Switch K, Same u (tripPos n u) := by
    intro u
    unfold tripPos
    split
    · split <;> constructor <;> rfl
    · exact same_refl u
  have hn : ∀ u : Switch K, Same u (tripNeg n u) := by
    intro u
    unfold tripNeg
    split
    · split <;> constructor <;> rfl
    · exact same_refl u
  have hx : ∀ u : Switch K, Same u (tripExt u) := by
    intro u
    unfold tripExt
    split
    · constructor <;> rfl
    · exact same_refl u
  unfold trips
  split
  · exact same_refl s
  · split
    · exact ((hp s).trans (hn _)).trans (hx _)
    · exact hx s

private theorem same_flow (i j v : K) (n : ℕ) (m : Bool) (s : Switch K) : Same s (updateFlow i j v n m s) := by
  have h : Same s (senses i j v s) := by constructor <;> rfl
  have k := h.trans (same_trips n (senses i j v s))
  exact k.trans (by constructor <;> rfl)

private theorem flow_keeps (i j v : K) (n : ℕ) (m : Bool) (s : Switch K) :
    let t := updateFlow i j v n m s
    t.posLimit = s.posLimit ∧ t.negLimit = s.negLimit ∧ t.prot = s.prot ∧ t.failClosed = s.failClosed ∧ t.priority = s.priority
      ∧ t.ext = s.ext ∧ t.cmd = s.cmd ∧ t.reset = s.reset ∧ t.failPos = s.failPos ∧ t.failNeg = s.failNeg
      ∧ t.failPosValue = s.failPosValue ∧ t.failNegValue = s.failNegValue ∧ t.defPos = s.defPos ∧ t.defNeg = s.defNeg :=
  have h := same_flow i j v n m s
  ⟨h.posLimit, h.negLimit, h.prot, h.failClosed, h.priority, h.ext, h.cmd, h.reset, h.failPos, h.failNeg, h.failPosValue, h.failNegValue,
    h.defPos, h.defNeg⟩

/-! ## Commands, malfunctions and power -/

/-- A switch without power is open, its close command is dropped and its trips are cleared, whatever its malfunctions. -/
theorem c94_no_power (s : Switch K) :
    (updateState false s).closed = false ∧ (updateState false s).cmd = false ∧ (updateState false s).tripped = false
      ∧ (updateState false s).waiting = false ∧ (updateState false s).conductance = 0 := by
  simp [updateState, resets, position, malfs, Switch.tripped, Switch.conductance]

/-- Where a powered switch stands: failed closed before failed open before the trips before the command. -/
theorem c94_position (s : Switch K) :
    (updateState true s).closed
      = if s.failClosed then true else if s.failOpen then false
        else if s.tripped = true ∨ s.waiting = true then s.closed else s.cmd := by
  have h : ∀ t : Switch K, (resets t).closed = t.closed := by
    intro t
    unfold resets
    split <;> rfl
  cases h1 : s.failClosed <;> cases h2 : s.failOpen <;> cases h3 : s.pos <;> cases h4 : s.neg <;> cases h5 : s.ext
    <;> cases h6 : s.waiting <;> simp [updateState, h, position, malfs, Switch.tripped, h1, h2, h3, h4, h5, h6]

/-- When the trips of a powered switch are cleared: on a reset and on a command to open, and then all of them. -/
theorem c94_clears (s : Switch K) :
    (updateState true s).reset = false
      ∧ if s.reset = true ∨ (s.tripped = true ∧ s.cmd = false)
        then (updateState true s).tripped = false ∧ (updateState true s).waiting = false
        else (updateState true s).pos = s.pos ∧ (updateState true s).neg = s.neg ∧ (updateState true s).ext = s.ext
          ∧ (updateState true s).waiting = s.waiting := by
  have h : ∀ u : Switch K, (resets u).reset = false
      ∧ if u.reset = true ∨ (u.tripped = true ∧ u.cmd = false) then (resets u).tripped = false ∧ (resets u).waiting = false
        else (resets u).pos = u.pos ∧ (resets u).neg = u.neg ∧ (resets u).ext = u.ext ∧ (resets u).waiting = u.waiting := by
    intro u
    unfold resets
    by_cases hc : u.reset = true ∨ (u.tripped = true ∧ u.cmd = false)
    · rw [if_pos hc, if_pos (by simpa using hc)]
      exact ⟨rfl, rfl, rfl⟩
    · rw [if_neg hc, if_neg (by simpa using hc)]
      exact ⟨by simpa using (not_or.mp hc).1, rfl, rfl, rfl, rfl⟩
  exact h (position true (malfs s))

/-- The limits an update leaves: those of the malfunctions where set. -/
theorem c94_limits (b : Bool) (s : Switch K) :
    (updateState b s).posLimit = (if s.failPos then s.failPosValue else s.defPos)
      ∧ (updateState b s).negLimit = (if s.failNeg then s.failNegValue else s.defNeg)
      ∧ (updateState b s).prot = (s.prot && !s.ignore) := by
  obtain ⟨⟨h1, h2, h3⟩, -⟩ := state_keeps b s
  refine ⟨h1, h2, h3.trans ?_⟩
  cases s.ignore <;> cases s.prot <;> rfl

/-- A switch conducts just when it is closed; the resistance of a closed one is its active resistance. -/
theorem c94_conducts (s : Switch K) :
    (0 < s.conductance ↔ s.closed = true) ∧ 0 ≤ s.conductance
      ∧ (s.closed = true → 0 < s.res → s.conductance * s.res = 1) := by
  have hl : (0 : K) < condLimit := by unfold condLimit; positivity
  unfold Switch.conductance
  refine ⟨?_, ?_, ?_⟩
  · by_cases h : s.closed = true <;> by_cases hr : 0 < s.res <;> simp [h, hr, hl]
  · by_cases h : s.closed = true <;> by_cases hr : 0 < s.res <;> simp [h, hr, hl.le, le_of_lt]
  · intro h hr
    simp [h, hr, ne_of_gt hr]

/-- Without the malfunction an update gives the switch its default resistance, which it keeps above zero. -/
theorem c94_resistance (b : Bool) (s : Switch K) (hf : s.failRes = false) :
    0 < (updateState b s).res ∧ (updateState b s).res = (updateState b s).defRes
      ∧ (0 < s.defRes → (updateState b s).res = s.defRes) := by
  have hl : (0 : K) < condLimit := by unfold condLimit; positivity
  have key : (updateState b s).res = (if s.defRes ≤ 0 then 1 / condLimit else s.defRes)
      ∧ (updateState b s).defRes = (if s.defRes ≤ 0 then 1 / condLimit else s.defRes) := by
    obtain ⟨-, ⟨h1, -, h3⟩, -⟩ := state_keeps b s
    rw [if_neg (by simp [hf])] at h3
    exact ⟨h3, h1⟩
  rw [key.1, key.2]
  refine ⟨?_, rfl, fun h => if_neg (not_le.mpr h)⟩
  split
  · positivity
  · rename_i h
    exact not_le.mp h

private theorem res_step (b : Bool) (s : Switch K) (hf : s.failRes = true) (hd : 0 < s.defRes) :
    (updateState b s).res = s.defRes * scaled s.percent ∧ (updateState b s).percent = scaled s.percent
      ∧ (updateState b s).failRes = true ∧ (updateState b s).defRes = s.defRes := by
  obtain ⟨-, ⟨h1, h2, h3⟩, h4, -⟩ := state_keeps b s
  rw [if_pos hf] at h2 h3
  rw [if_neg (not_le.mpr hd)] at h1 h3
  exact ⟨h3, h2, h4.trans hf, h1⟩

/-- The resistance malfunction takes fractions up to one and percentages up to a hundred, and holds that resistance on every
later pass. -/
theorem c94_percent (s : Switch K) (hf : s.failRes = true) (hd : 0 < s.defRes) (hp : s.percent ≤ 100) (n : ℕ) :
    ((updateState true)^[n + 1] s).res = s.defRes * (if 1 < s.percent then s.percent / 100 else s.percent) := by
  have hs : scaled s.percent ≤ 1 := by
    unfold scaled
    split
    · linarith
    · rename_i h
      exact not_lt.mp h
  have hss : scaled (scaled s.percent) = scaled s.percent := by
    conv_lhs => unfold scaled
    rw [if_neg (not_lt.mpr (by simpa [scaled] using hs))]
    simp [scaled]
  have key : ∀ m : ℕ, ((updateState true)^[m + 1] s).res = s.defRes * scaled s.percent
      ∧ ((updateState true)^[m + 1] s).percent = scaled s.percent ∧ ((updateState true)^[m + 1] s).failRes = true
      ∧ ((updateState true)^[m + 1] s).defRes = s.defRes := by
    intro m
    induction m with
    | zero => exact res_step true s hf hd
    | succ m ih =>
      rw [Function.iterate_succ_apply']
      obtain ⟨-, h2, h3, h4⟩ := ih
      have h := res_step true _ h3 (by rw [h4]; exact hd)
      rw [h2, h4, hss] at h
      exact h
  exact (key n).1

/-- A percentage over a hundred is divided again on the next pass: the failure to 150 percent gives 1.5 times the resistance on
the first pass and 0.015 times the resistance on the second. -/
theorem c94_percent_divides (s : Switch K) (hf : s.failRes = true) (hd : 0 < s.defRes) (h1 : 100 < s.percent) :
    (updateState true s).res = s.defRes * (s.percent / 100)
      ∧ (updateState true (updateState true s)).res = s.defRes * (s.percent / 10000) := by
  have a := res_step true s hf hd
  have e1 : scaled s.percent = s.percent / 100 := by
    unfold scaled
    rw [if_pos (by linarith)]
  have e2 : scaled (s.percent / 100) = s.percent / 10000 := by
    unfold scaled
    rw [if_pos (by linarith)]
    ring
  have b := res_step true (updateState true s) a.2.2.1 (by rw [a.2.2.2]; exact hd)
  refine ⟨by rw [a.1, e1], ?_⟩
  rw [b.1, a.2.1, a.2.2.2, e1, e2]

/-- What the displays show, in order of precedence. -/
theorem c94_code (b : Bool) (s : Switch K) :
    let t := updateState b s
    t.code = if t.ext then 7 else if t.neg then 6 else if t.pos then 5
      else if t.failOpen && t.failClosed then 4 else if t.failClosed then 3 else if t.failOpen then 2
      else if t.closed then 1 else 0 := by
  simp only [updateState, stateCode]
  rfl

/-! ## Trips -/

/-- A closed and protected switch over its positive limit, at a step it may trip at, opens, carries nothing and says it has just
tripped. -/
theorem c94_trips (s : Switch K) (i j v : K) (n : ℕ) (hc : s.closed = true) (hp : s.prot = true) (hf : s.failClosed = false)
    (ht : s.tripped = false) (hn : s.priority ≤ n) (hi : s.posLimit < j ∨ j < s.negLimit) :
    let t := updateFlow i j v n false s
    t.closed = false ∧ t.actual = 0 ∧ t.power = 0 ∧ t.waiting = false ∧ t.just = true
      ∧ (t.pos = true ↔ s.posLimit < j) ∧ (t.neg = true ↔ j < s.negLimit) ∧ t.outputVolts = 0 := by
  simp only [Switch.tripped, Bool.or_eq_false_iff] at ht
  obtain ⟨⟨h1, h2⟩, h3⟩ := ht
  by_cases ha : s.posLimit < j <;> by_cases hb : j < s.negLimit
  · simp [updateFlow, trips, senses, tripPos, tripNeg, tripExt, hc, hp, hf, hn, ha, hb, h1, h2, h3, Switch.tripped, Switch.conductance, Switch.outputVolts]
  · simp [updateFlow, trips, senses, tripPos, tripNeg, tripExt, hc, hp, hf, hn, ha, hb, h1, h2, h3, Switch.tripped, Switch.conductance, Switch.outputVolts]
  · simp [updateFlow, trips, senses, tripPos, tripNeg, tripExt, hc, hp, hf, hn, ha, hb, h1, h2, h3, Switch.tripped, Switch.conductance, Switch.outputVolts]
  · exact absurd hi (by simp [ha, hb])

/-- Before its step it stays closed and waits. -/
theorem c94_waits (s : Switch K) (i j v : K) (n : ℕ) (hc : s.closed = true) (hp : s.prot = true) (hf : s.failClosed = false)
    (ht : s.tripped = false) (hn : n < s.priority) (hi : s.posLimit < j ∨ j < s.negLimit) :
    let t := updateFlow i j v n false s
    t.closed = true ∧ t.actual = i ∧ t.waiting = true ∧ t.just = false ∧ t.tripped = false := by
  simp only [Switch.tripped, Bool.or_eq_false_iff] at ht
  obtain ⟨⟨h1, h2⟩, h3⟩ := ht
  have hk := not_le.mpr hn
  by_cases ha : s.posLimit < j <;> by_cases hb : j < s.negLimit
  · simp [updateFlow, trips, senses, tripPos, tripNeg, tripExt, hc, hp, hf, hk, ha, hb, h1, h2, h3, Switch.tripped]
  · simp [updateFlow, trips, senses, tripPos, tripNeg, tripExt, hc, hp, hf, hk, ha, hb, h1, h2, h3, Switch.tripped]
  · simp [updateFlow, trips, senses, tripPos, tripNeg, tripExt, hc, hp, hf, hk, ha, hb, h1, h2, h3, Switch.tripped]
  · exact absurd hi (by simp [ha, hb])

/-- A switch with no current over its limits, failed closed, or without protection, keeps its position and its trips. -/
theorem c94_holds (s : Switch K) (i j v : K) (n : ℕ) (m : Bool) (hx : s.ext = false)
    (hi : s.failClosed = true ∨ s.prot = false ∨ (s.closed = true ∧ s.negLimit ≤ j ∧ j ≤ s.posLimit)
      ∨ (s.closed = false ∧ s.negLimit ≤ 0 ∧ 0 ≤ s.posLimit)) :
    let t := updateFlow i j v n m s
    t.closed = s.closed ∧ t.pos = s.pos ∧ t.neg = s.neg ∧ t.waiting = false
      ∧ t.actual = (if s.closed then i else 0) ∧ t.just = (if m then s.just else false) := by
  rcases hi with h | h | ⟨h, h1, h2⟩ | ⟨h, h1, h2⟩
  · cases m <;> simp [updateFlow, trips, senses, h, hx, Switch.tripped]
      <;> (cases s.pos <;> cases s.neg <;> simp)
  · cases hf : s.failClosed <;> cases m <;> simp [updateFlow, trips, senses, tripExt, h, hf, hx, Switch.tripped]
      <;> (cases s.pos <;> cases s.neg <;> simp)
  · cases hf : s.failClosed <;> cases hp : s.prot <;> cases m <;>
      simp [updateFlow, trips, senses, tripPos, tripNeg, tripExt, h, hf, hp, hx, not_lt.mpr h1, not_lt.mpr h2, Switch.tripped]
      <;> (cases s.pos <;> cases s.neg <;> simp)
  · cases hf : s.failClosed <;> cases hp : s.prot <;> cases m <;>
      simp [updateFlow, trips, senses, tripPos, tripNeg, tripExt, h, hf, hp, hx, not_lt.mpr h1, not_lt.mpr h2, Switch.tripped]
      <;> (cases s.pos <;> cases s.neg <;> simp)

/-- The heat of a switch is the square of the current through it times its resistance, and nothing when it is open. -/
theorem c94_heat (s : Switch K) (i j v : K) (n : ℕ) (m : Bool) (hr : 0 < s.res) :
    let t := updateFlow i j v n m s
    0 ≤ t.power ∧ t.power = (if t.closed then t.actual * t.actual * s.res else 0) := by
  have e : (trips n (senses i j v s)).res = s.res := (same_trips n (senses i j v s)).res
  suffices key : ∀ t : Switch K, t.res = s.res →
      0 ≤ (if 0 < t.conductance then |t.actual * t.actual| / t.conductance else 0)
        ∧ (if 0 < t.conductance then |t.actual * t.actual| / t.conductance else 0)
          = (if t.closed then t.actual * t.actual * s.res else 0) from key _ e
  intro t e
  have hp : |t.actual * t.actual| = t.actual * t.actual := abs_of_nonneg (mul_self_nonneg _)
  cases hc : t.closed
  · simp [Switch.conductance, hc]
  · have hcond : t.conductance = 1 / s.res := by simp [Switch.conductance, hc, e, hr]
    rw [hcond, if_pos (by positivity), hp, if_pos rfl]
    have : t.actual * t.actual / (1 / s.res) = t.actual * t.actual * s.res := by field_simp
    rw [this]
    exact ⟨mul_nonneg (mul_self_nonneg _) hr.le, rfl⟩

/-! ## The link -/

/-- A confirmed solution of a switch that was not tripped is one for the position the switch is left in, and the current in a
closed and protected switch is within the limits. -/
theorem c94_accepts (s : Switch K) (i v : K) (n : ℕ) (ht : s.tripped = false) (h : (confirm i v n s).2 = .confirm) :
    0 < n ∧ (confirm i v n s).1.closed = s.closed ∧ (confirm i v n s).1.tripped = false
      ∧ (s.closed = true → s.prot = true → s.failClosed = false → s.negLimit ≤ i ∧ i ≤ s.posLimit)
      ∧ (confirm i v n s).1.actual = (if s.closed then i else 0) := by
  simp only [Switch.tripped, Bool.or_eq_false_iff] at ht
  obtain ⟨⟨h1, h2⟩, h3⟩ := ht
  by_cases hn : 0 < n
  · refine ⟨hn, ?_⟩
    cases hc : s.closed
    · cases hf : s.failClosed <;> cases hp : s.prot <;> by_cases ha : s.posLimit < 0 <;> by_cases hb : 0 < s.negLimit
        <;> by_cases hk : s.priority ≤ n
        <;> simp [confirm, hn, updateFlow, trips, senses, tripPos, tripNeg, tripExt, hc, hf, hp, hk, ha, hb, h1, h2, h3, Switch.tripped] at h ⊢
    · cases hf : s.failClosed <;> cases hp : s.prot <;> by_cases ha : s.posLimit < i <;> by_cases hb : i < s.negLimit
        <;> by_cases hk : s.priority ≤ n
        <;> simp [confirm, hn, updateFlow, trips, senses, tripPos, tripNeg, tripExt, hc, hf, hp, hk, ha, hb, h1, h2, h3, Switch.tripped] at h ⊢
      all_goals exact ⟨not_lt.mp hb, not_lt.mp ha⟩
  · simp [confirm, hn] at h

/-- The link never confirms before the first converged step, delays while the switch waits and rejects the solution it trips on. -/
theorem c94_answers (s : Switch K) (i v : K) (hc : s.closed = true) (hp : s.prot = true) (hf : s.failClosed = false)
    (ht : s.tripped = false) (hi : s.posLimit < i ∨ i < s.negLimit) (n : ℕ) :
    (confirm i v n s).2 = (if 0 < n ∧ s.priority ≤ n then .reject else .delay) := by
  by_cases hn : 0 < n
  · by_cases hk : s.priority ≤ n
    · have h := c94_trips s i i v n hc hp hf ht hk hi
      simp only at h
      simp [confirm, hn, hk, h.2.2.2.1, h.2.2.2.2.1]
    · have h := c94_waits s i i v n hc hp hf ht (not_le.mp hk) hi
      simp only at h
      simp [confirm, hn, hk, h.2.2.1]
  · simp [confirm, hn]

/-- A switch over its limits at every step of a pass opens at the step of its priority and not before. -/
theorem c94_priority (s : Switch K) (i v : ℕ → K) (hc : s.closed = true) (hp : s.prot = true) (hf : s.failClosed = false)
    (ht : s.tripped = false) (hi : ∀ k, s.posLimit < i k ∨ i k < s.negLimit) (h1 : 1 ≤ s.priority) :
    (∀ n, n < s.priority → (steps i v n s).1.closed = true ∧ (steps i v n s).2 = .delay)
      ∧ (steps i v s.priority s).1.closed = false ∧ (steps i v s.priority s).2 = .reject := by
  have key : ∀ n, n < s.priority → ((steps i v n s).1.closed = true ∧ (steps i v n s).1.prot = true
      ∧ (steps i v n s).1.failClosed = false ∧ (steps i v n s).1.tripped = false ∧ (steps i v n s).1.posLimit = s.posLimit
      ∧ (steps i v n s).1.negLimit = s.negLimit ∧ (steps i v n s).1.priority = s.priority) ∧ (steps i v n s).2 = .delay := by
    intro n
    induction n with
    | zero => intro _; exact ⟨⟨hc, hp, hf, ht, rfl, rfl, rfl⟩, rfl⟩
    | succ n ih =>
      intro hn
      obtain ⟨⟨a1, a2, a3, a4, a5, a6, a7⟩, -⟩ := ih (by omega)
      have hi' := hi (n + 1)
      rw [← a5, ← a6] at hi'
      have w := c94_waits _ (i (n + 1)) (i (n + 1)) (v (n + 1)) (n + 1) a1 a2 a3 a4 (by rw [a7]; exact hn) hi'
      have k := flow_keeps (i (n + 1)) (i (n + 1)) (v (n + 1)) (n + 1) false (steps i v n s).1
      have an := c94_answers _ (i (n + 1)) (v (n + 1)) a1 a2 a3 a4 hi' (n + 1)
      simp only at w k
      have e : (confirm (i (n + 1)) (v (n + 1)) (n + 1) (steps i v n s).1).1
          = updateFlow (i (n + 1)) (i (n + 1)) (v (n + 1)) (n + 1) false (steps i v n s).1 := by
        simp [confirm]
      simp only [steps]
      refine ⟨⟨?_, ?_, ?_, ?_, ?_, ?_, ?_⟩, ?_⟩
      · rw [e]; exact w.1
      · rw [e, k.2.2.1]; exact a2
      · rw [e, k.2.2.2.1]; exact a3
      · rw [e]; exact w.2.2.2.2
      · rw [e, k.1]; exact a5
      · rw [e, k.2.1]; exact a6
      · rw [e, k.2.2.2.2.1]; exact a7
      · rw [an, a7, if_neg (by omega)]
  refine ⟨fun n hn => ⟨(key n hn).1.1, (key n hn).2⟩, ?_⟩
  obtain ⟨n, hn⟩ : ∃ n, s.priority = n + 1 := ⟨s.priority - 1, by omega⟩
  obtain ⟨⟨a1, a2, a3, a4, a5, a6, a7⟩, -⟩ := key n (by omega)
  have hi' := hi (n + 1)
  rw [← a5, ← a6] at hi'
  have w := c94_trips _ (i (n + 1)) (i (n + 1)) (v (n + 1)) (n + 1) a1 a2 a3 a4 (by omega) hi'
  have an := c94_answers _ (i (n + 1)) (v (n + 1)) a1 a2 a3 a4 hi' (n + 1)
  simp only at w
  rw [hn]
  refine ⟨?_, ?_⟩
  · simp only [steps, confirm]
    simpa using w.1
  · simp only [steps]
    rw [an, a7, if_pos (by omega)]

/-- Of two switches in a row that carry the same excessive current, the one of the lower priority number is open when the other
is still closed. -/
theorem c94_order (a b : Switch K) (i v w : ℕ → K) (hac : a.closed = true) (hap : a.prot = true) (haf : a.failClosed = false)
    (hat : a.tripped = false) (hai : ∀ k, a.posLimit < i k ∨ i k < a.negLimit)
    (hbc : b.closed = true) (hbp : b.prot = true) (hbf : b.failClosed = false) (hbt : b.tripped = false)
    (hbi : ∀ k, b.posLimit < i k ∨ i k < b.negLimit) (h1 : 1 ≤ a.priority) (h2 : a.priority < b.priority) :
    (steps i v a.priority a).1.closed = false ∧ (steps i w a.priority b).1.closed = true :=
  ⟨(c94_priority a i v hac hap haf hat hai h1).2.1,
    ((c94_priority b i w hbc hbp hbf hbt hbi (by omega)).1 _ h2).1⟩

example : (steps (fun _ => (4 : ℚ)) (fun _ => 120) 2 sw).1.closed = true ∧ (steps (fun _ => (4 : ℚ)) (fun _ => 120) 3 sw).1.closed = false
    ∧ (steps (fun _ => (4 : ℚ)) (fun _ => 120) 3 sw).2 = .reject ∧ (steps (fun _ => (3 : ℚ)) (fun _ => 120) 3 sw).2 = .confirm := by
  decide +kernel

/-! ## A trip holds -/

/-- What leaves a tripped switch tripped: no loss of power, no command to open, no reset, no failure to the closed position,
no withdrawal of the external trip, and limits on the two sides of zero. -/
private def Quiet : Event K → Prop
  | .update b => b = true
  | .flow _ _ _ _ _ => True
  | .command c => c = true
  | .resetTrips => False
  | .external b => b = true
  | .failOpen _ => True
  | .failClosed b => b = false
  | .failRes _ _ => True
  | .failPos _ x => 0 ≤ x
  | .failNeg _ x => x ≤ 0
  | .ignore _ => True

private structure Latched (s : Switch K) : Prop where
  closed : s.closed = false
  tripped : s.tripped = true
  cmd : s.cmd = true
  reset : s.reset = false
  failClosed : s.failClosed = false
  p1 : 0 ≤ s.posLimit
  p2 : 0 ≤ s.defPos
  p3 : 0 ≤ s.failPosValue
  n1 : s.negLimit ≤ 0
  n2 : s.defNeg ≤ 0
  n3 : s.failNegValue ≤ 0

private theorem update_latched (s : Switch K) (h : Latched s) : Latched (updateState true s) := by
  have l := c94_limits true s
  have c := c94_clears s
  rw [if_neg (by simp [h.reset, h.cmd])] at c
  have hp := c94_position s
  rw [if_neg (by simp [h.failClosed])] at hp
  have e : (updateState true s).cmd = s.cmd ∧ (updateState true s).failClosed = s.failClosed
      ∧ (updateState true s).defPos = s.defPos ∧ (updateState true s).defNeg = s.defNeg
      ∧ (updateState true s).failPosValue = s.failPosValue ∧ (updateState true s).failNegValue = s.failNegValue := by
    obtain ⟨-, -, -, -, k3, -, -, k6, k7, k8, k9, k10⟩ := state_keeps true s
    exact ⟨k10, k3, k8, k9, k6, k7⟩
  obtain ⟨e1, e2, e3, e4, e5, e6⟩ := e
  refine ⟨?_, ?_, ?_, c.1, ?_, ?_, ?_, ?_, ?_, ?_, ?_⟩
  · rw [hp]
    by_cases ho : s.failOpen = true
    · simp [ho]
    · simp [ho, h.tripped, h.closed]
  · have := h.tripped
    simp only [Switch.tripped] at this ⊢
    rw [c.2.1, c.2.2.1, c.2.2.2.1]
    exact this
  · rw [e1]; exact h.cmd
  · rw [e2]; exact h.failClosed
  · rw [l.1]
    split
    · exact h.p3
    · exact h.p2
  · rw [e3]; exact h.p2
  · rw [e5]; exact h.p3
  · rw [l.2.1]
    split
    · exact h.n3
    · exact h.n2
  · rw [e4]; exact h.n2
  · rw [e6]; exact h.n3

private theorem flow_latched (i j v : K) (n : ℕ) (m : Bool) (s : Switch K) (h : Latched s) : Latched (updateFlow i j v n m s) := by
  have k := flow_keeps i j v n m s
  have t : (updateFlow i j v n m s).closed = false ∧ (updateFlow i j v n m s).pos = s.pos ∧ (updateFlow i j v n m s).neg = s.neg := by
    simp only [updateFlow, trips, senses, tripPos, tripNeg, tripExt, h.closed, h.failClosed]
    cases s.prot <;> simp [not_lt.mpr h.p1, not_lt.mpr h.n1, h.closed]
  simp only at k
  obtain ⟨k1, k2, k3, k4, k5, k6, k7, k8, k9, k10, k11, k12, k13, k14⟩ := k
  refine ⟨t.1, ?_, by rw [k7]; exact h.cmd, by rw [k8]; exact h.reset, by rw [k4]; exact h.failClosed, by rw [k1]; exact h.p1,
    by rw [k13]; exact h.p2, by rw [k11]; exact h.p3, by rw [k2]; exact h.n1, by rw [k14]; exact h.n2, by rw [k12]; exact h.n3⟩
  have := h.tripped
  simp only [Switch.tripped] at this ⊢
  rw [t.2.1, t.2.2, k6]
  exact this

private theorem handle_latched (e : Event K) (he : Quiet e) (s : Switch K) (h : Latched s) : Latched (handle e s) := by
  cases e with
  | update b => rw [show b = true from he]; exact update_latched s h
  | flow i j v n m => exact flow_latched i j v n m s h
  | command c => rw [show c = true from he]; exact { h with cmd := rfl, tripped := h.tripped }
  | resetTrips => exact absurd he (by simp [Quiet])
  | external b =>
    rw [show b = true from he]
    exact { h with tripped := (by simp [handle, Switch.tripped]) }
  | failOpen b => exact { h with tripped := h.tripped }
  | failClosed b => rw [show b = false from he]; exact { h with failClosed := rfl, tripped := h.tripped }
  | failRes b x => exact { h with tripped := h.tripped }
  | failPos b x => exact { h with p3 := he, tripped := h.tripped }
  | failNeg b x => exact { h with n3 := he, tripped := h.tripped }
  | ignore b => exact { h with tripped := h.tripped }

/-- A tripped switch stays open through any number of passes, whatever the currents, until it is commanded open, reset, loses its
power or is failed closed. -/
theorem c94_latched (s : Switch K) (es : List (Event K)) (hc : s.closed = false) (ht : s.tripped = true) (hm : s.cmd = true)
    (hr : s.reset = false) (hf : s.failClosed = false) (hp : 0 ≤ s.posLimit ∧ 0 ≤ s.defPos ∧ 0 ≤ s.failPosValue)
    (hn : s.negLimit ≤ 0 ∧ s.defNeg ≤ 0 ∧ s.failNegValue ≤ 0)
    (he : ∀ e ∈ es, match e with
      | .update b => b = true
      | .command c => c = true
      | .resetTrips => False
      | .external b => b = true
      | .failClosed b => b = false
      | .failPos _ x => 0 ≤ x
      | .failNeg _ x => x ≤ 0
      | _ => True) :
    (handleAll es s).closed = false ∧ (handleAll es s).tripped = true := by
  have key : ∀ (es : List (Event K)) (s : Switch K), (∀ e ∈ es, Quiet e) → Latched s → Latched (handleAll es s) := by
    intro es
    induction es with
    | nil => intro s _ h; exact h
    | cons e es ih =>
      intro s hq h
      exact ih _ (fun e' h' => hq e' (List.mem_cons_of_mem _ h')) (handle_latched e (hq e (List.mem_cons_self ..)) s h)
  have := key es s (fun e h => by
    have := he e h
    cases e <;> simp_all [Quiet]) ⟨hc, ht, hm, hr, hf, hp.1, hp.2.1, hp.2.2, hn.1, hn.2.1, hn.2.2⟩
  exact ⟨this.closed, this.tripped⟩

/-- A tripped switch that is commanded open and then closed again is closed on the second pass, with no trip left. -/
theorem c94_recloses (s : Switch K) (hf : s.failClosed = false) (ho : s.failOpen = false) (ht : s.tripped = true) (hc : s.closed = false) :
    let a := updateState true { s with cmd := false }
    let b := updateState true { a with cmd := true }
    a.closed = false ∧ a.tripped = false ∧ b.closed = true ∧ b.tripped = false := by
  intro a b
  have a1 : a.closed = false := by
    have := c94_position { s with cmd := false }
    rw [show a.closed = _ from this]
    simp only [hf, ho]
    simp [hc]
  have a2 := c94_clears { s with cmd := false }
  rw [if_pos (Or.inr ⟨ht, rfl⟩)] at a2
  have a3 : a.failClosed = false ∧ a.failOpen = false := by
    obtain ⟨-, -, -, k2, k3, -⟩ := state_keeps true { s with cmd := false }
    exact ⟨k3.trans hf, k2.trans ho⟩
  have at' : a.tripped = false := a2.2.1
  have aw : a.waiting = false := a2.2.2
  have ar : a.reset = false := a2.1
  refine ⟨a1, at', ?_, ?_⟩
  · have := c94_position { a with cmd := true }
    rw [show b.closed = _ from this]
    simp only [Switch.tripped] at at' ⊢
    simp [a3.1, a3.2, at', aw]
  · have := c94_clears { a with cmd := true }
    rw [if_neg (by simp [ar])] at this
    have e : b.tripped = (b.pos || b.neg || b.ext) := rfl
    rw [e, show b.pos = _ from this.2.1, show b.neg = _ from this.2.2.1, show b.ext = _ from this.2.2.2.1]
    exact at'

/-! ## What the code gets wrong -/

/-- The malfunction to ignore the current trips takes the protection away for good: no event gives it back. -/
theorem c94_ignore_sticks (s : Switch K) (b : Bool) (es : List (Event K)) (hi : s.ignore = true) :
    (handleAll es (updateState b s)).prot = false := by
  have h0 : (updateState b s).prot = false := by rw [(c94_limits b s).2.2, hi]; simp
  have key : ∀ (es : List (Event K)) (s : Switch K), s.prot = false → (handleAll es s).prot = false := by
    intro es
    induction es with
    | nil => intro s h; exact h
    | cons e es ih =>
      intro s h
      refine ih (handle e s) ?_
      cases e with
      | update b => exact (by rw [show (handle (.update b) s) = updateState b s from rfl, (c94_limits b s).2.2, h]; simp)
      | flow i j v n m =>
        have k := flow_keeps i j v n m s
        simp only at k
        exact k.2.2.1.trans h
      | _ => exact h
  exact key es _ h0

/-- A tripped switch that was failed closed stays closed, and tripped, after the failure is taken back, for as long as its
current is within the limits. -/
theorem c94_failed_closed_stays (s : Switch K) (n : ℕ) (i j v : K) (k : ℕ) (hc : s.closed = true) (ht : s.tripped = true) (hm : s.cmd = true)
    (hr : s.reset = false) (hx : s.ext = false) (hf : s.failClosed = false) (ho : s.failOpen = false)
    (hj : (if s.failNeg then s.failNegValue else s.defNeg) ≤ j ∧ j ≤ (if s.failPos then s.failPosValue else s.defPos)) :
    let pass := fun t : Switch K => updateFlow i j v k false (updateState true t)
    (pass^[n] s).closed = true ∧ (pass^[n] s).tripped = true := by
  intro pass
  have key : ∀ m, (pass^[m] s).closed = true ∧ (pass^[m] s).tripped = true ∧ (pass^[m] s).cmd = true ∧ (pass^[m] s).reset = false
      ∧ (pass^[m] s).ext = false ∧ (pass^[m] s).failClosed = false ∧ (pass^[m] s).failOpen = false
      ∧ (if (pass^[m] s).failNeg then (pass^[m] s).failNegValue else (pass^[m] s).defNeg) ≤ j
      ∧ j ≤ (if (pass^[m] s).failPos then (pass^[m] s).failPosValue else (pass^[m] s).defPos) := by
    intro m
    induction m with
    | zero => exact ⟨hc, ht, hm, hr, hx, hf, ho, hj⟩
    | succ m ih =>
      rw [Function.iterate_succ_apply']
      obtain ⟨b1, b2, b3, b4, b5, b6, b7, b8, b9⟩ := ih
      generalize pass^[m] s = t at *
      have l := c94_limits true t
      have c := c94_clears t
      rw [if_neg (by simp [b4, b3])] at c
      have hp := c94_position t
      simp only [b6, b7, b2, b1] at hp
      have hp' : (updateState true t).closed = true := by simpa using hp
      have e : (updateState true t).cmd = t.cmd ∧ (updateState true t).failClosed = t.failClosed ∧ (updateState true t).failOpen = t.failOpen
          ∧ (updateState true t).defPos = t.defPos ∧ (updateState true t).defNeg = t.defNeg
          ∧ (updateState true t).failPosValue = t.failPosValue ∧ (updateState true t).failNegValue = t.failNegValue
          ∧ (updateState true t).failPos = t.failPos ∧ (updateState true t).failNeg = t.failNeg := by
        obtain ⟨-, -, -, k2, k3, k4, k5, k6, k7, k8, k9, k10⟩ := state_keeps true t
        exact ⟨k10, k3, k2, k8, k9, k6, k7, k4, k5⟩
      obtain ⟨e1, e2, e3, e4, e5, e6, e7, e8, e9⟩ := e
      have q := c94_holds (updateState true t) i j v k false (by rw [c.2.2.2.1]; exact b5)
        (Or.inr (Or.inr (Or.inl ⟨hp', by rw [l.2.1]; exact b8, by rw [l.1]; exact b9⟩)))
      have kk := flow_keeps i j v k false (updateState true t)
      have fo : (updateFlow i j v k false (updateState true t)).failOpen = (updateState true t).failOpen :=
        (same_flow i j v k false (updateState true t)).failOpen
      simp only at q kk
      obtain ⟨k1, k2, k3, k4, k5, k6, k7, k8, k9, k10, k11, k12, k13, k14⟩ := kk
      refine ⟨?_, ?_, ?_, ?_, ?_, ?_, ?_, ?_, ?_⟩
      · exact q.1.trans hp'
      · simp only [Switch.tripped] at b2 ⊢
        show ((pass t).pos || (pass t).neg || (pass t).ext) = true
        rw [show (pass t).pos = _ from q.2.1, show (pass t).neg = _ from q.2.2.1, show (pass t).ext = _ from k6, c.2.1, c.2.2.1, c.2.2.2.1]
        exact b2
      · exact k7.trans (e1.trans b3)
      · exact k8.trans c.1
      · exact k6.trans (c.2.2.2.1.trans b5)
      · exact k4.trans (e2.trans b6)
      · exact fo.trans (e3.trans b7)
      · show (if (pass t).failNeg then (pass t).failNegValue else (pass t).defNeg) ≤ j
        rw [show (pass t).failNeg = _ from k10.trans e9, show (pass t).failNegValue = _ from k12.trans e7, show (pass t).defNeg = _ from k14.trans e5]
        exact b8
      · show j ≤ (if (pass t).failPos then (pass t).failPosValue else (pass t).defPos)
        rw [show (pass t).failPos = _ from k9.trans e8, show (pass t).failPosValue = _ from k11.trans e6, show (pass t).defPos = _ from k13.trans e4]
        exact b9
  exact ⟨(key n).1, (key n).2.1⟩

/-- A tripped switch, failed closed and restored: closed and tripped. -/
private def restored : Switch ℚ :=
  handleAll [.flow 4 4 120 3 false, .failClosed true, .update true, .failClosed false] sw

example : restored.closed = true ∧ restored.tripped = true ∧ restored.cmd = true ∧ restored.reset = false ∧ restored.ext = false
    ∧ restored.failClosed = false ∧ restored.failOpen = false := by decide +kernel

/-- An external trip opens the switch without a rejection: the solution found with the switch closed is confirmed. -/
theorem c94_external_confirms (s : Switch K) (i v : K) (n : ℕ) (hn : 0 < n) (hc : s.closed = true) (hx : s.ext = true)
    (hf : s.failClosed = false) (hi : s.negLimit ≤ i ∧ i ≤ s.posLimit) :
    (confirm i v n s).2 = .confirm ∧ (confirm i v n s).1.closed = false ∧ (confirm i v n s).1.actual = 0 := by
  cases hp : s.prot <;>
    simp [confirm, hn, updateFlow, trips, senses, tripPos, tripNeg, tripExt, hc, hf, hp, hx, not_lt.mpr hi.1, not_lt.mpr hi.2, Switch.tripped]

/-- With a failed limit below zero an open switch senses an excess in no current, and waits and trips again. -/
theorem c94_open_trips :
    let s : Switch ℚ := { sw with
      closed := false
      posLimit := -1 }
    (updateFlow 0 0 120 1 false s).waiting = true ∧ (updateFlow 0 0 120 3 false s).pos = true := by
  decide +kernel

end Gunns.Props
