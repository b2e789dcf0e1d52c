import Verif.Control.PidSpec
import Mathlib.Tactic.Ring
import Mathlib.Tactic.Linarith
import Mathlib.Algebra.BigOperators.Group.List.Basic
import Mathlib.Algebra.Order.Archimedean.Basic

/-!
# C49: the PID controller

Model: `Verif.Control.Pid`.  Specification: `Verif.Control.PidSpec`.
-/

set_option linter.unusedSectionVars false

namespace Gunns.Props

open Gunns.Elements Gunns.Control Gunns.Control.Spec

variable {K : Type _} [Field K] [LinearOrder K] [IsStrictOrderedRing K]

private def flush (x : K) : K := if |x| < dblEps then 0 else x

private theorem flush_near (x : K) : Nearly dblEps (flush x) x := by
  unfold flush
  split_ifs with h
  · exact Or.inr ⟨rfl, h⟩
  · exact Or.inl rfl

private theorem call_fire (c : Pid K) (i : Call K) (h : c.interval ≤ c.timer + i.dt) (hi : 0 < c.interval) :
    c.call i.dt i.input i.setpoint = { c with
      input := i.input
      setpoint := i.setpoint
      timer := 0
      error := i.input - i.setpoint
      integral := flush (c.integral + (i.input - i.setpoint) * (c.timer + i.dt))
      derivative := (i.input - i.setpoint - c.error) / (c.timer + i.dt)
      output := limitRange c.low (flush (c.output + ((i.input - i.setpoint) * c.gainP +
        (c.integral + (i.input - i.setpoint) * (c.timer + i.dt)) * c.gainI +
        (i.input - i.setpoint - c.error) / (c.timer + i.dt) * c.gainD))) c.high } := by
  unfold Pid.call Pid.update flush
  dsimp only
  rw [if_pos ⟨hi, h⟩]
  split_ifs <;> rfl

/-- C49, when: a call updates the controller exactly if the time since the last update, this call's step
included, has reached the interval.  Otherwise only the timer, the input and the setpoint change. -/
theorem c49_hold (c : Pid K) (i : Call K) (h : ¬ c.interval ≤ c.timer + i.dt) :
    c.call i.dt i.input i.setpoint = { c with
      input := i.input
      setpoint := i.setpoint
      timer := c.timer + i.dt } := by
  unfold Pid.call Pid.update
  exact if_neg (fun hh => h hh.2)

/-- C49, what: an update integrates the error over the time since the last update, differentiates it over
that time, and moves the output by the gains' sum, within the limits.  Values below `DBL_EPSILON` are
flushed to zero. -/
theorem c49_update (c : Pid K) (i : Call K) (h : c.interval ≤ c.timer + i.dt) (hi : 0 < c.interval) :
    let c' := c.call i.dt i.input i.setpoint
    let T := c.timer + i.dt
    let e := i.input - i.setpoint
    c'.timer = 0 ∧ c'.error = e ∧ c'.derivative * T = e - c.error ∧
    Nearly dblEps c'.integral (c.integral + e * T) ∧
    ∃ o, Nearly dblEps o (c.output + (c.gainP * e + c.gainI * (c.integral + e * T) +
        c.gainD * c'.derivative)) ∧ c'.output = clip c.low c.high o := by
  intro c' T e
  have hT : T ≠ 0 := (hi.trans_le h).ne'
  have hc : c' = _ := call_fire c i h hi
  rw [hc]
  refine ⟨rfl, rfl, div_mul_cancel₀ _ hT, flush_near _, _, flush_near _, ?_⟩
  show limitRange _ _ _ = _
  rw [show clip c.low c.high = fun x => limitRange c.low x c.high from funext fun _ => max_comm _ _]
  dsimp only
  congr 2
  ring

theorem call_const (c : Pid K) (i : Call K) :
    let c' := c.call i.dt i.input i.setpoint
    c'.gainP = c.gainP ∧ c'.gainI = c.gainI ∧ c'.gainD = c.gainD ∧ c'.interval = c.interval ∧
    c'.low = c.low ∧ c'.high = c.high := by
  intro c'
  unfold c' Pid.call Pid.update
  dsimp only
  split_ifs <;> exact ⟨rfl, rfl, rfl, rfl, rfl, rfl⟩

private theorem flush_dist (x : K) : |flush x - x| ≤ dblEps := by
  unfold flush
  split_ifs with h
  · rw [zero_sub, abs_neg]; exact h.le
  · rw [sub_self, abs_zero]; exact dblEps_pos.le

/-- C49, a history of calls: the controller updates at the times of the specification, its timer is the
time since the last update, its integral is that of the error over the updates, up to a flush of at most
`DBL_EPSILON` per update, and its settings stay. -/
theorem c49_history (l : List (Call K)) : ∀ (c : Pid K), 0 < c.interval →
    (run c l).timer = sinceUpdate c.interval c.timer l ∧
    |(run c l).integral - (c.integral + integralOf (updates c.interval c.timer l))| ≤
      ((updates c.interval c.timer l).length : K) * dblEps ∧
    (run c l).error = ((updates c.interval c.timer l).getLast?.elim c.error Prod.snd) ∧
    (run c l).low = c.low ∧ (run c l).high = c.high ∧ (run c l).interval = c.interval ∧
    (run c l).gainP = c.gainP ∧ (run c l).gainI = c.gainI ∧ (run c l).gainD = c.gainD := by
  induction l with
  | nil =>
    intro c _
    refine ⟨rfl, ?_, rfl, rfl, rfl, rfl, rfl, rfl, rfl⟩
    simp [run, updates, integralOf]
  | cons i l ih =>
    intro c hi
    obtain ⟨k1, k2, k3, k4, k5, k6⟩ := call_const c i
    obtain ⟨h1, h2, h3, h4, h5, h6, h7, h8, h9⟩ := ih (c.call i.dt i.input i.setpoint) (by rw [k4]; exact hi)
    rw [k4] at h1 h2 h3 h6
    rw [k5] at h4
    rw [k6] at h5
    rw [k1] at h7
    rw [k2] at h8
    rw [k3] at h9
    have hrun : run c (i :: l) = run (c.call i.dt i.input i.setpoint) l := rfl
    rw [hrun]
    unfold updates sinceUpdate
    by_cases h : c.interval ≤ c.timer + i.dt
    · have hc := call_fire c i h hi
      have ht : (c.call i.dt i.input i.setpoint).timer = 0 := by rw [hc]
      have he : (c.call i.dt i.input i.setpoint).error = i.input - i.setpoint := by rw [hc]
      have hI : (c.call i.dt i.input i.setpoint).integral =
        flush (c.integral + (i.input - i.setpoint) * (c.timer + i.dt)) := by rw [hc]
      rw [ht] at h1 h2 h3
      rw [if_pos h, if_pos h]
      refine ⟨h1, ?_, ?_, h4, h5, h6, h7, h8, h9⟩
      · rw [List.length_cons, Nat.cast_add, Nat.cast_one]
        have hd := flush_dist (c.integral + (i.input - i.setpoint) * (c.timer + i.dt))
        rw [← hI] at hd
        have hs : integralOf ((c.timer + i.dt, i.input - i.setpoint) :: updates c.interval 0 l) =
            (i.input - i.setpoint) * (c.timer + i.dt) + integralOf (updates c.interval 0 l) := by
          unfold integralOf
          rw [List.map_cons, List.sum_cons, mul_comm]
        rw [hs]
        rw [abs_le] at hd h2 ⊢
        constructor <;> linarith [hd.1, hd.2, h2.1, h2.2]
      · rw [h3, List.getLast?_cons, he]
        cases (updates c.interval 0 l).getLast? <;> rfl
    · have hc := c49_hold c i h
      rw [hc] at h1 h2 h3 h4 h5 h6 h7 h8 h9
      rw [hc, if_neg h, if_neg h]
      exact ⟨h1, h2, h3, h4, h5, h6, h7, h8, h9⟩

/-- C49, the limits: the output is within them from the first update on, and always if it was at the
start. -/
theorem c49_limits (l : List (Call K)) : ∀ (c : Pid K), 0 < c.interval → c.low ≤ c.high →
    updates c.interval c.timer l ≠ [] ∨ (c.low ≤ c.output ∧ c.output ≤ c.high) →
    c.low ≤ (run c l).output ∧ (run c l).output ≤ c.high := by
  induction l with
  | nil =>
    intro c _ _ h
    rcases h with h | h
    · exact absurd rfl h
    · exact h
  | cons i l ih =>
    intro c hi hl h
    obtain ⟨k1, k2, k3, k4, k5, k6⟩ := call_const c i
    have hrun : run c (i :: l) = run (c.call i.dt i.input i.setpoint) l := rfl
    rw [hrun, ← k5, ← k6]
    refine ih _ (by rw [k4]; exact hi) (by rw [k5, k6]; exact hl) ?_
    rw [k4, k5, k6]
    by_cases hu : c.interval ≤ c.timer + i.dt
    · right
      rw [call_fire c i hu hi]
      exact ⟨le_max_right _ _, max_le (min_le_right _ _) hl⟩
    · rw [c49_hold c i hu]
      unfold updates at h
      rw [if_neg hu] at h
      exact h

/-- C49, the time between updates is at least the interval, and exceeds it by less than the longest
time step. -/
theorem c49_intervals {interval d : K} (l : List (Call K)) : ∀ t : K, t < interval → 0 < interval →
    (∀ i ∈ l, i.dt ≤ d) → ∀ u ∈ updates interval t l, interval ≤ u.1 ∧ u.1 < interval + d := by
  induction l with
  | nil => intro t _ _ _ u hu; exact absurd hu List.not_mem_nil
  | cons i l ih =>
    intro t ht h0 hd u hu
    have hl := fun j hj => hd j (List.mem_cons_of_mem _ hj)
    have hi := hd i List.mem_cons_self
    unfold updates at hu
    split_ifs at hu with h
    · rcases List.mem_cons.1 hu with rfl | hu
      · exact ⟨h, by linarith⟩
      · exact ih 0 h0 h0 hl u hu
    · exact ih _ (not_le.1 h) h0 hl u hu

/-- C49, constant time steps: an update every `k` calls, where `k` is the least number of steps that last
the interval. -/
theorem c49_period {interval : K} {i : Call K} {k : Nat}
    (h1 : ((k : Nat) : K) * i.dt < interval) (h2 : interval ≤ ((k + 1 : Nat) : K) * i.dt) (n : Nat) :
    updates interval 0 (List.replicate (n * (k + 1)) i) =
      List.replicate n (((k + 1 : Nat) : K) * i.dt, i.input - i.setpoint) := by
  have hdt : 0 < i.dt := by
    rw [Nat.cast_add, Nat.cast_one] at h2; linarith
  -- a stretch of calls up to the update
  have stretch : ∀ j : Nat, j ≤ k → ∀ l, updates interval (((k - j : Nat) : K) * i.dt)
      (List.replicate (j + 1) i ++ l) =
      (((k + 1 : Nat) : K) * i.dt, i.input - i.setpoint) :: updates interval 0 l := by
    intro j
    induction j with
    | zero =>
      intro _ l
      rw [Nat.sub_zero, zero_add, List.replicate_one, List.singleton_append, updates]
      have : ((k : Nat) : K) * i.dt + i.dt = ((k + 1 : Nat) : K) * i.dt := by
        rw [Nat.cast_add, Nat.cast_one]; ring
      rw [this, if_pos h2]
    | succ j ih =>
      intro hj l
      rw [List.replicate_succ, List.cons_append]
      rw [updates]
      have hstep : ((k - (j + 1) : Nat) : K) * i.dt + i.dt = ((k - j : Nat) : K) * i.dt := by
        have : k - j = (k - (j + 1)) + 1 := by omega
        rw [this, Nat.cast_add, Nat.cast_one]; ring
      have hlt : ((k - j : Nat) : K) * i.dt < interval := by
        refine lt_of_le_of_lt (mul_le_mul_of_nonneg_right ?_ hdt.le) h1
        exact Nat.cast_le.2 (Nat.sub_le _ _)
      rw [hstep, if_neg (not_le.2 hlt)]
      exact ih (by omega) l
  induction n with
  | zero => rw [Nat.zero_mul]; rfl
  | succ n ih =>
    have : (n + 1) * (k + 1) = (k + 1) + n * (k + 1) := by ring
    rw [this, List.replicate_add]
    have := stretch k le_rfl (List.replicate (n * (k + 1)) i)
    rw [Nat.sub_self, Nat.cast_zero, zero_mul] at this
    rw [this, ih, List.replicate_succ]

/-- C49, calls in small steps: several calls with the same input and setpoint that end in the first update
are the same as one call with the whole time. -/
theorem c49_split (x r dt : K) (l : List K) : ∀ c : Pid K,
    (∀ k, k ≤ l.length → c.timer + (l.take k).sum < c.interval) →
    (run c (l.map (fun d => ⟨d, x, r⟩))).call dt x r = c.call (l.sum + dt) x r := by
  induction l with
  | nil => intro c _; rw [List.sum_nil, zero_add]; rfl
  | cons d l ih =>
    intro c h
    have hc := c49_hold c ⟨d, x, r⟩ (not_le.2 (by have := h 1 (by simp); simpa using this))
    rw [List.map_cons]
    have hrun : run c (⟨d, x, r⟩ :: l.map (fun d => ⟨d, x, r⟩)) =
      run (c.call d x r) (l.map (fun d => ⟨d, x, r⟩)) := rfl
    have h' := ih { c with
      input := x
      setpoint := r
      timer := c.timer + d } (fun k hk => by
        have := h (k + 1) (by rw [List.length_cons]; omega)
        rw [List.take_succ_cons, List.sum_cons, ← add_assoc] at this
        exact this)
    rw [hrun, hc]
    refine h'.trans ?_
    unfold Pid.call Pid.update
    have e : c.timer + d + (l.sum + dt) = c.timer + ((d :: l).sum + dt) := by
      rw [List.sum_cons]; ring
    simp only [e]

/-- C49, violated: the proportional gain is not proportional.  With it alone a constant error moves the
output by the same amount at every update, until the limit. -/
theorem c49_ramp (n : Nat) (i : Call K) : ∀ c : Pid K, c.gainI = 0 → c.gainD = 0 → 0 < c.interval →
    c.timer = 0 → c.interval ≤ i.dt → c.low ≤ 0 → 0 ≤ c.output → c.output ≤ c.high →
    dblEps ≤ c.gainP * (i.input - i.setpoint) →
    (run c (List.replicate n i)).output =
      min c.high (c.output + ((n : Nat) : K) * (c.gainP * (i.input - i.setpoint))) := by
  have he := dblEps_pos (K := K)
  induction n with
  | zero =>
    intro c _ _ _ _ _ _ _ ho _
    rw [Nat.cast_zero, zero_mul, add_zero, min_eq_right ho]
    rfl
  | succ n ih =>
    intro c hI hD hi ht hdt hlow h0 hhigh hp
    have hrun : run c (List.replicate (n + 1) i) =
      run (c.call i.dt i.input i.setpoint) (List.replicate n i) := rfl
    have hc := call_fire c i (by rw [ht, zero_add]; exact hdt) hi
    obtain ⟨k1, k2, k3, k4, k5, k6⟩ := call_const c i
    obtain ⟨q, hq⟩ : ∃ q, q = c.gainP * (i.input - i.setpoint) := ⟨_, rfl⟩
    have hout : (c.call i.dt i.input i.setpoint).output = min c.high (c.output + q) := by
      rw [hc]
      show limitRange _ (flush _) _ = _
      rw [hI, hD, mul_zero, mul_zero, add_zero, add_zero, mul_comm (i.input - i.setpoint), ← hq]
      rw [← hq] at hp
      unfold flush limitRange
      rw [if_neg (by rw [abs_of_pos (by linarith)]; linarith), min_comm]
      apply max_eq_left
      exact le_min (by linarith) (by linarith)
    rw [hrun, ih _ (by rw [k2]; exact hI) (by rw [k3]; exact hD) (by rw [k4]; exact hi) (by rw [hc])
      (by rw [k4]; exact hdt) (by rw [k5]; exact hlow)
      (by rw [hout]; exact le_min (by linarith) (by rw [hq]; linarith))
      (by rw [hout, k6]; exact min_le_left _ _) (by rw [k1]; exact hp), hout, k1, k6, ← hq]
    rw [← hq] at hp
    rw [Nat.cast_add, Nat.cast_one]
    have hn : (0 : K) ≤ ((n : Nat) : K) * q := mul_nonneg (Nat.cast_nonneg _) (by linarith)
    rcases le_total c.high (c.output + q) with h | h
    · rw [min_eq_left h, min_eq_left (by linarith), min_eq_left (by linarith)]
    · rw [min_eq_right h]
      congr 1
      ring

/-- C49, violated: windup.  While the output is at its limit the integral goes on growing, and the output
stays at the limit, against the sign of the error, until the error has been integrated back. -/
theorem c49_windup (n : Nat) (i : Call K) : ∀ c : Pid K, c.gainP = 0 → c.gainD = 0 → 0 ≤ c.gainI →
    0 < c.interval → c.timer = 0 → c.interval ≤ i.dt → c.low ≤ c.high → dblEps ≤ c.high →
    c.output = c.high → dblEps ≤ (i.setpoint - i.input) * i.dt →
    ((n : Nat) : K) * ((i.setpoint - i.input) * i.dt) ≤ c.integral →
    (run c (List.replicate n i)).output = c.high := by
  have he := dblEps_pos (K := K)
  induction n with
  | zero => intro c _ _ _ _ _ _ _ _ h _ _; exact h
  | succ n ih =>
    intro c hP hD hI hi ht hdt hl hh ho hE hn
    have hrun : run c (List.replicate (n + 1) i) =
      run (c.call i.dt i.input i.setpoint) (List.replicate n i) := rfl
    have hc := call_fire c i (by rw [ht, zero_add]; exact hdt) hi
    obtain ⟨k1, k2, k3, k4, k5, k6⟩ := call_const c i
    obtain ⟨q, hq⟩ : ∃ q, q = (i.setpoint - i.input) * i.dt := ⟨_, rfl⟩
    have hq' : (i.input - i.setpoint) * (c.timer + i.dt) = - q := by rw [hq, ht]; ring
    rw [← hq] at hE hn
    rw [Nat.cast_add, Nat.cast_one, add_mul, one_mul] at hn
    have hn0 : (0 : K) ≤ ((n : Nat) : K) * q := mul_nonneg (Nat.cast_nonneg _) (by linarith)
    have hout : (c.call i.dt i.input i.setpoint).output = c.high := by
      rw [hc]
      show limitRange _ (flush _) _ = _
      rw [hP, hD, mul_zero, mul_zero, zero_add, add_zero, hq', ho]
      have : 0 ≤ (c.integral + -q) * c.gainI := mul_nonneg (by linarith) hI
      unfold flush limitRange
      rw [if_neg (by rw [abs_of_nonneg (by linarith)]; linarith), min_eq_right (by linarith), max_eq_left hl]
    have hint : ((n : Nat) : K) * q ≤ (c.call i.dt i.input i.setpoint).integral := by
      rw [hc]
      show _ ≤ flush _
      rw [hq']
      unfold flush
      split_ifs with hf
      · rw [abs_of_nonneg (by linarith)] at hf
        rcases n.eq_zero_or_pos with h | h
        · rw [h, Nat.cast_zero, zero_mul]
        · exfalso
          have : (1 : K) ≤ ((n : Nat) : K) := by exact_mod_cast h
          have := mul_le_mul_of_nonneg_right this (by linarith : (0 : K) ≤ q)
          linarith
      · linarith
    rw [hrun, ih _ (by rw [k1]; exact hP) (by rw [k3]; exact hD) (by rw [k2]; exact hI)
      (by rw [k4]; exact hi) (by rw [hc]) (by rw [k4]; exact hdt) (by rw [k5, k6]; exact hl)
      (by rw [k6]; exact hh) (by rw [hout, k6]) (by rw [← hq]; exact hE) (by rw [← hq]; exact hint), k6]

/-- C49: `initialize` refuses exactly an interval or limits that make no sense. -/
theorem c49_init (c : Pid K) :
    (Pid.init c).isSome ↔ 0 < c.interval ∧ c.low < c.high := by
  unfold Pid.init
  by_cases h1 : 0 < c.interval
  · by_cases h2 : c.low < c.high
    · rw [if_neg (not_not.2 h1), if_neg (not_not.2 h2)]
      exact iff_of_true rfl ⟨h1, h2⟩
    · rw [if_neg (not_not.2 h1), if_pos h2]
      exact iff_of_false Bool.false_ne_true (fun h => h2 h.2)
  · rw [if_pos h1]
    exact iff_of_false Bool.false_ne_true (fun h => h1 h.1)

/-- A controller with all three gains. -/
def exPid : Pid ℚ := ⟨1/2, 1/10, 1/4, 1, -10, 10, 0, 0, 0, 0, 0, 0, 0⟩

/-- Calls every 3/10 s: an update every four calls. -/
example : updates 1 0 (List.replicate (2 * 4) (⟨3/10, 2, 1⟩ : Call ℚ)) = [(6/5, 1), (6/5, 1)] ∧
    (run exPid (List.replicate 8 ⟨3/10, 2, 1⟩)).integral = 12/5 ∧
    (run exPid (List.replicate 8 ⟨3/10, 2, 1⟩)).output = 941/600 := by
  decide +kernel

/-- Hypotheses of `c49_ramp`: half a unit per update although the error is constant. -/
example : (run { exPid with gainI := 0, gainD := 0 } (List.replicate 7 ⟨1, 2, 1⟩)).output = 7/2 := by
  decide +kernel

/-- Hypotheses of `c49_windup`: after five updates at error 6, four at error -6 change nothing. -/
example : let c := run { exPid with gainP := 0, gainD := 0, gainI := 1 } (List.replicate 5 ⟨1, 6, 0⟩)
    c.output = c.high ∧ c.integral = 30 ∧ c.timer = 0 ∧
    (run c (List.replicate 5 ⟨1, 0, 6⟩)).output = 10 := by
  decide +kernel

end Gunns.Props
