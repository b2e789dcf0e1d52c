import Verif.Optim.DescentLemmas

set_option linter.unusedSectionVars false

namespace Gunns.Optim.Descent

open Gunns.Elements Gunns.Optim.Descent.Spec

variable {K : Type _} [Field K] [LinearOrder K] [IsStrictOrderedRing K]
variable {cfg : Config K} {ins : Inputs K}

/-- Lower and upper limits of the inputs. -/
def lows (ins : Inputs K) : Nat → K := fun i => (ins.at_ i).min
def highs (ins : Inputs K) : Nat → K := fun i => (ins.at_ i).max

/-- Inputs with room between their limits. -/
def Ranged (ins : Inputs K) : Prop := 0 < ins.dim ∧ ∀ i, i < ins.dim → (ins.at_ i).min ≤ (ins.at_ i).max

/-- An optimizer as `initialize` leaves it, as far as counters and run ids go. -/
def Fresh (d : Desc K) : Prop :=
  d.globalRun = -1 ∧ d.run = -1 ∧ d.epoch = 1 ∧ d.glob.runId < 0 ∧ ∀ p, (d.probes p).runId < 0

theorem probeTo_trial (hin : Ranged ins) (x : Nat → K) {p : Nat} (hp : p < 2 * ins.dim) :
    probeTo ins x p = trialOf (lows ins) (highs ins) x p (p / 2) := by
  unfold probeTo trialOf lows highs
  rw [Function.update_self, incTo_up (hin.2 _ (by omega)), decTo_down (hin.2 _ (by omega))]

theorem set_trial (hin : Ranged ins) (d : Desc K) {p : Nat} (hp : p < 2 * ins.dim) :
    ((setGradientStates ins d).probes p).state = trialOf (lows ins) (highs ins) d.glob.state p ∧
    ((setGradientStates ins d).probes p).dState =
      trialOf (lows ins) (highs ins) d.glob.state p (p / 2) - d.glob.state (p / 2) := by
  unfold setGradientStates
  simp only [if_pos hp]
  refine ⟨?_, by rw [probeTo_trial hin _ hp]⟩
  funext j
  by_cases hj : j = p / 2
  · rw [if_pos hj, hj, probeTo_trial hin _ hp]
  · rw [if_neg hj]
    unfold trialOf
    rw [Function.update_of_ne hj]

/-- Run `r` of epoch `e` has been sent out last. -/
structure At (ins : Inputs K) (l : Log K) (e r : Nat) : Prop where
  le : r ≤ 2 * ins.dim
  runs : l.runs = e * (2 * ins.dim + 1) + r + 1
  globalRun : l.desc.globalRun = ((e * (2 * ins.dim + 1) + r : Nat) : Int)
  run : l.desc.run = (r : Int)
  epoch : l.desc.epoch = ((e + 1 : Nat) : Int)
  gid : l.desc.glob.runId = ((e * (2 * ins.dim + 1) : Nat) : Int)
  pid : ∀ p, p < r → (l.desc.probes p).runId = ((e * (2 * ins.dim + 1) + 1 + p : Nat) : Int)
  pidGe : ∀ p, r ≤ p → p < 2 * ins.dim →
    (e = 0 ∧ (l.desc.probes p).runId < 0) ∨
      (0 < e ∧ (l.desc.probes p).runId + ((2 * ins.dim + 1 : Nat) : Int) =
        ((e * (2 * ins.dim + 1) + 1 + p : Nat) : Int))
  gstate : l.desc.glob.state = l.sent (e * (2 * ins.dim + 1))
  pstate : 0 < r → ∀ p, p < 2 * ins.dim →
    (l.desc.probes p).state = trialOf (lows ins) (highs ins) (l.sent (e * (2 * ins.dim + 1))) p ∧
    (l.desc.probes p).dState = trialOf (lows ins) (highs ins) (l.sent (e * (2 * ins.dim + 1))) p (p / 2)
      - l.sent (e * (2 * ins.dim + 1)) (p / 2)

/-- The runs after the first of an epoch are the trials of the first. -/
def Trials (ins : Inputs K) (l : Log K) : Prop :=
  ∀ e p, p < 2 * ins.dim → e * (2 * ins.dim + 1) + 1 + p < l.runs →
    l.sent (e * (2 * ins.dim + 1) + 1 + p) =
      trialOf (lows ins) (highs ins) (l.sent (e * (2 * ins.dim + 1))) p

/-- Nothing has been sent out, or some run has been sent out last. -/
def Counted (ins : Inputs K) (d0 : Desc K) (l : Log K) : Prop :=
  (l.runs = 0 ∧ l.desc = d0) ∨ (Trials ins l ∧ l.sent 0 = d0.glob.state ∧ ∃ e r, At ins l e r)

/-- The run sent out after nothing. -/
theorem at_first {l l' : Log K} (h0 : l.runs = 0) (hf : Fresh l.desc)
    (h : step cfg ins l .run = some l') :
    At ins l' 0 0 ∧ Trials ins l' ∧ l'.sent 0 = l.desc.glob.state := by
  obtain ⟨f1, f2, f3, f4, f5⟩ := hf
  have hu := update_first (cfg := cfg) (ins := ins) f2
  simp only [step, Option.some.injEq, hu] at h
  subst h
  refine ⟨⟨by omega, by simp [h0], by simp [f1], by simp, by simp [f3], by simp [f1],
    fun p hp => by omega, fun p _ _ => Or.inl ⟨rfl, by simpa using f5 p⟩, ?_, fun hr => by omega⟩, ?_, ?_⟩
  · simp [h0, getState]
  · intro e p hp hlt
    simp only [h0] at hlt
    omega
  · simp [h0, getState]

/-- A trial run. -/
theorem at_same {l l' : Log K} {e r : Nat} (hin : Ranged ins) (ha : At ins l e r) (ht : Trials ins l)
    (hr : r < 2 * ins.dim) (h : step cfg ins l .run = some l') :
    At ins l' e (r + 1) ∧ Trials ins l' ∧
      (∀ k, k < l.runs → l'.sent k = l.sent k) ∧ l'.desc.glob = l.desc.glob ∧
      (∀ p, (l'.desc.probes p).dCost = (l.desc.probes p).dCost ∧
        (l'.desc.probes p).grad = (l.desc.probes p).grad) ∧
      (0 < r → ∀ p, (l'.desc.probes p).dState = (l.desc.probes p).dState) := by
  have hsent : ∀ k, k < l.runs → l'.sent k = l.sent k := by
    intro k hk
    simp only [step, Option.some.injEq] at h
    subst h
    simp only [if_neg (show ¬ k = l.runs by omega)]
  have hbase : l'.sent (e * (2 * ins.dim + 1)) = l.sent (e * (2 * ins.dim + 1)) :=
    hsent _ (by rw [ha.runs]; omega)
  have key : l'.runs = l.runs + 1 ∧ l'.desc.globalRun = l.desc.globalRun + 1 ∧
      l'.desc.run = (r : Int) + 1 ∧ l'.desc.epoch = l.desc.epoch ∧ l'.desc.glob = l.desc.glob ∧
      (∀ p, (l'.desc.probes p).runId =
        if p = r then l.desc.globalRun + 1 else (l.desc.probes p).runId) ∧
      (∀ p, p < 2 * ins.dim →
        (l'.desc.probes p).state = trialOf (lows ins) (highs ins) (l.sent (e * (2 * ins.dim + 1))) p ∧
        (l'.desc.probes p).dState = trialOf (lows ins) (highs ins) (l.sent (e * (2 * ins.dim + 1))) p (p / 2)
          - l.sent (e * (2 * ins.dim + 1)) (p / 2)) ∧
      (∀ p, (l'.desc.probes p).dCost = (l.desc.probes p).dCost ∧
        (l'.desc.probes p).grad = (l.desc.probes p).grad) ∧
      (0 < r → ∀ p, (l'.desc.probes p).dState = (l.desc.probes p).dState) ∧
      l'.sent l.runs = (l'.desc.probes r).state := by
    rcases Nat.eq_zero_or_pos r with h0 | h0
    · subst h0
      have hu := update_probe0 (cfg := cfg) (ins := ins) (d := l.desc) (by simpa using ha.run)
      simp only [step, Option.some.injEq, hu] at h
      subst h
      refine ⟨rfl, rfl, by simp, rfl, rfl, fun p => ?_, fun p hp => ?_, fun p => ?_, fun hr => by omega, ?_⟩
      · by_cases hp : p = 0
        · simp [hp]
        · simp only [if_neg hp]
          unfold setGradientStates
          simp only
          split_ifs <;> rfl
      · have := set_trial hin l.desc hp
        rw [ha.gstate] at this
        by_cases hp0 : p = 0
        · simp only [if_pos hp0]; exact this
        · simp only [if_neg hp0]; exact this
      · by_cases hp : p = 0
        · simp only [if_pos hp]
          unfold setGradientStates
          simp only
          split_ifs <;> exact ⟨rfl, rfl⟩
        · simp only [if_neg hp]
          unfold setGradientStates
          simp only
          split_ifs <;> exact ⟨rfl, rfl⟩
      · simp [getState]
    · have hu := update_probe (cfg := cfg) (ins := ins) ha.run h0 hr
      simp only [step, Option.some.injEq, hu] at h
      subst h
      refine ⟨rfl, rfl, rfl, rfl, rfl, fun p => ?_, fun p hp => ?_, fun p => ?_, fun _ p => ?_, ?_⟩
      · by_cases hp : p = r
        · simp only [if_pos hp]
        · simp only [if_neg hp]
      · have := ha.pstate h0 p hp
        by_cases hp0 : p = r
        · simp only [if_pos hp0]; exact this
        · simp only [if_neg hp0]; exact this
      · by_cases hp : p = r
        · simp [if_pos hp]
        · simp [if_neg hp]
      · by_cases hp : p = r
        · simp only [if_pos hp]
        · simp only [if_neg hp]
      · simp [getState]
  obtain ⟨k1, k2, k3, k4, k5, k6, k7, k8, k9, k10⟩ := key
  refine ⟨⟨by omega, by rw [k1, ha.runs]; ring, by rw [k2, ha.globalRun]; push_cast; ring,
    by rw [k3]; push_cast; ring, by rw [k4, ha.epoch], by rw [k5, ha.gid], fun p hp => ?_,
    fun p hp hp2 => ?_, by rw [k5, ha.gstate, hbase], fun _ p hp => ?_⟩, ?_, hsent, k5, k8, k9⟩
  · rw [k6]
    by_cases hpr : p = r
    · rw [if_pos hpr, ha.globalRun, hpr]; push_cast; ring
    · rw [if_neg hpr, ha.pid p (by omega)]
  · rw [k6, if_neg (by omega)]
    exact ha.pidGe p (by omega) hp2
  · rw [hbase]; exact k7 p hp
  · intro e' p hp hlt
    rw [k1] at hlt
    rcases Nat.lt_or_ge (e' * (2 * ins.dim + 1) + 1 + p) l.runs with hlt' | hge
    · rw [hsent _ hlt', hsent _ (by omega)]
      exact ht e' p hp hlt'
    · have heq : e' * (2 * ins.dim + 1) + 1 + p = e * (2 * ins.dim + 1) + r + 1 := by
        have := ha.runs; omega
      have he : e' = e := by
        have h1 : (e' * (2 * ins.dim + 1) + (1 + p)) / (2 * ins.dim + 1) = e' := by
          rw [Nat.mul_comm, Nat.mul_add_div (by omega), Nat.div_eq_of_lt (by omega)]; omega
        have h2 : (e * (2 * ins.dim + 1) + (r + 1)) / (2 * ins.dim + 1) = e := by
          rw [Nat.mul_comm, Nat.mul_add_div (by omega), Nat.div_eq_of_lt (by omega)]; omega
        rw [← h1, ← h2]
        congr 1
        omega
      subst he
      have hpr : p = r := by omega
      subst hpr
      rw [hbase, show e' * (2 * ins.dim + 1) + 1 + p = l.runs by rw [ha.runs]; omega, k10]
      exact (k7 p hp).1

/-- The first run of the next epoch. -/
theorem at_new {l l' : Log K} {e r : Nat} (hin : Ranged ins) (ha : At ins l e r) (ht : Trials ins l)
    (hr : r = 2 * ins.dim) (h : step cfg ins l .run = some l') :
    At ins l' (e + 1) 0 ∧ Trials ins l' ∧ (∀ k, k < l.runs → l'.sent k = l.sent k) ∧
      l'.sent ((e + 1) * (2 * ins.dim + 1)) = (propagate cfg ins l.desc).glob.state := by
  have hu := update_new (cfg := cfg) (ins := ins) (d := l.desc) hin.1 (by rw [ha.run, hr])
  have hm : (e + 1) * (2 * ins.dim + 1) = e * (2 * ins.dim + 1) + r + 1 := by rw [hr]; ring
  simp only [step, Option.some.injEq, hu] at h
  subst h
  have hs : ∀ k, k < l.runs → ¬ k = l.runs := fun k hk => by omega
  refine ⟨⟨by omega, by simp only [ha.runs, hm], ?_, by simp, by simp only [ha.epoch]; push_cast; ring,
    ?_, fun p hp => by omega, fun p _ hp => ?_, ?_, fun hr => by omega⟩, ?_, ?_, ?_⟩
  · simp only [ha.globalRun, hm]; push_cast; ring
  · simp only [ha.globalRun, hm]; push_cast; ring
  · simp only
    refine Or.inr ⟨by omega, ?_⟩
    rw [ha.pid p (by omega)]
    push_cast
    ring
  · simp [hm, ha.runs, getState]
  · intro e' p hp hlt
    simp only at hlt ⊢
    have hlt' : e' * (2 * ins.dim + 1) + 1 + p < l.runs := by
      rcases Nat.lt_or_ge (e' * (2 * ins.dim + 1) + 1 + p) l.runs with h1 | h1
      · exact h1
      · exfalso
        have heq : e' * (2 * ins.dim + 1) + (1 + p) = (e + 1) * (2 * ins.dim + 1) + 0 := by
          have := ha.runs; omega
        have h2 := congrArg (· % (2 * ins.dim + 1)) heq
        simp only [Nat.mul_add_mod_self_right, Nat.zero_mod] at h2
        rw [Nat.mod_eq_of_lt (by omega)] at h2
        omega
    rw [if_neg (by omega), if_neg (by omega)]
    exact ht e' p hp hlt'
  · intro k hk
    simp only [if_neg (hs k hk)]
  · simp [hm, ha.runs, getState]

/-- What a result changes. -/
theorem back_fields {l l' : Log K} {id : Int} {v : K} (h : step cfg ins l (.back id v) = some l') :
    l'.runs = l.runs ∧ l'.sent = l.sent ∧ l'.desc.globalRun = l.desc.globalRun ∧
    l'.desc.run = l.desc.run ∧ l'.desc.epoch = l.desc.epoch ∧ l'.desc.active = l.desc.active ∧
    l'.desc.glob.runId = l.desc.glob.runId ∧ l'.desc.glob.state = l.desc.glob.state ∧
    ∀ p, (l'.desc.probes p).runId = (l.desc.probes p).runId ∧
      (l'.desc.probes p).state = (l.desc.probes p).state ∧
      (l'.desc.probes p).dState = (l.desc.probes p).dState := by
  obtain ⟨h1, h2, h3⟩ := back_some h
  unfold assignCost at h3
  cases hf : (List.range (2 * ins.dim)).find? (fun p => decide (id = (l.desc.probes p).runId)) with
  | some p =>
    rw [hf] at h3
    simp only [Option.some.injEq] at h3
    rw [← h3]
    refine ⟨h1, h2, rfl, rfl, rfl, rfl, rfl, rfl, fun q => ?_⟩
    by_cases hq : q = p
    · simp [hq]
    · simp [if_neg hq]
  | none =>
    rw [hf] at h3
    simp only at h3
    split_ifs at h3 with hg
    rw [← Option.some.inj h3]
    exact ⟨h1, h2, rfl, rfl, rfl, rfl, rfl, rfl, fun q => ⟨rfl, rfl, rfl⟩⟩

theorem at_back_at {l l' : Log K} {id : Int} {v : K} {e r : Nat}
    (h : step cfg ins l (.back id v) = some l') (ha : At ins l e r) : At ins l' e r := by
  obtain ⟨h1, h2, h3, h4, h5, h6, h7, h8, h9⟩ := back_fields h
  exact ⟨ha.le, by rw [h1, ha.runs], by rw [h3, ha.globalRun], by rw [h4, ha.run], by rw [h5, ha.epoch],
    by rw [h7, ha.gid], fun p hp => by rw [(h9 p).1, ha.pid p hp],
    fun p hp hp2 => by rw [(h9 p).1]; exact ha.pidGe p hp hp2, by rw [h8, h2, ha.gstate],
    fun hr p hp => by rw [(h9 p).2.1, (h9 p).2.2, h2]; exact ha.pstate hr p hp⟩

theorem trials_back {l l' : Log K} {id : Int} {v : K}
    (h : step cfg ins l (.back id v) = some l') (ht : Trials ins l) : Trials ins l' := by
  obtain ⟨h1, h2, _⟩ := back_some h
  intro e p hp hlt
  rw [h1] at hlt
  rw [h2]
  exact ht e p hp hlt

theorem At.pid_lt {l : Log K} {e r : Nat} (ha : At ins l e r) {p : Nat} (h1 : r ≤ p) (h2 : p < 2 * ins.dim) :
    (l.desc.probes p).runId < ((e * (2 * ins.dim + 1) : Nat) : Int) := by
  rcases ha.pidGe p h1 h2 with ⟨h3, h4⟩ | ⟨h3, h4⟩
  · exact lt_of_lt_of_le h4 (by positivity)
  · push_cast at h4 ⊢
    omega

/-- A result that does not match any run sent out. -/
theorem assign_none {v : K} {id : Int} {d : Desc K} (h : d.glob.runId ≠ id)
    (hp : ∀ p, p < 2 * ins.dim → (d.probes p).runId ≠ id) : assignCost ins v id d = none := by
  have hf : (List.range (2 * ins.dim)).find? (fun p => decide (id = (d.probes p).runId)) = none := by
    rw [List.find?_eq_none]
    intro q hq
    simpa using (hp q (List.mem_range.1 hq)).symm
  unfold assignCost
  rw [hf]
  simp only [if_neg (Ne.symm h)]

end Gunns.Optim.Descent
