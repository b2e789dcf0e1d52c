import Verif.Elect.NetworkLemmas

/-!
# Invariants of the private state of links through a step of the solver
-/

set_option linter.unusedSectionVars false

namespace Gunns

variable {σ K : Type _} [Field K] [LinearOrder K] {M : Methods σ K} {c : Cfg K}

theorem outputPotential_priv (s : State σ K) : (outputPotential c s).env.priv = s.env.priv := by
  unfold outputPotential
  split <;> rfl

theorem overridePotential_env (s : State σ K) : (overridePotential c s).env = s.env := by
  unfold overridePotential
  split <;> rfl

theorem overridePotential_keeps (s : State σ K) :
    (overridePotential c s).hist = s.hist ∧ (overridePotential c s).failCount = s.failCount := by
  unfold overridePotential
  split <;> exact ⟨rfl, rfl⟩

theorem outputPotential_keeps (s : State σ K) :
    (outputPotential c s).hist = s.hist ∧ (outputPotential c s).failCount = s.failCount := by
  unfold outputPotential
  split <;> exact ⟨rfl, rfl⟩

theorem linksInputs_priv (P : σ → Prop) (h : ∀ l e, P e.priv → P (M.processInputs l e).priv) (s : State σ K)
    (hs : P s.env.priv) : P (linksInputs M c s).env.priv := by
  unfold linksInputs
  exact loop_inv (P := fun _ (t : State σ K) => P t.env.priv) _ hs fun k _ t ht => h k _ ht

theorem linksOutputs_priv (P : σ → Prop) (h : ∀ l e, P e.priv → P (M.processOutputs l e).priv) (s : State σ K)
    (hs : P s.env.priv) : P (linksOutputs M c s).env.priv := by
  unfold linksOutputs
  exact loop_inv (P := fun _ (t : State σ K) => P t.env.priv) _ hs fun k _ t ht => h _ _ ht

theorem stepLinks_priv (P : σ → Prop) (h1 : ∀ l e, P e.priv → P (M.step l e).priv)
    (h2 : ∀ l m e, P e.priv → P (M.minorStep l m e).priv)
    (h3 : ∀ l e, P e.priv → P (M.needAdmittanceUpdate l e).2.priv) (s : State σ K)
    (hs : P s.env.priv) : P (stepLinks M c s).env.priv := by
  unfold stepLinks
  refine loop_inv (P := fun _ (t : State σ K) => P t.env.priv) _ hs fun k _ t ht => ?_
  dsimp only
  refine h3 _ _ ?_
  split
  · exact h1 _ _ ht
  · split
    · exact h2 _ _ _ ht
    · exact ht

theorem confirmSolution_priv (P : σ → Prop) (h : ∀ l n m e, P e.priv → P (M.confirm l n m e).2.priv) (n m : Nat)
    (e : Env σ K) (hs : P e.priv) : P (confirmSolution M c n m e).env.priv := by
  unfold confirmSolution
  refine loop_inv (P := fun _ (t : Poll σ K) => P t.env.priv) _ hs fun k _ t ht => ?_
  dsimp only
  split
  · exact h _ _ _ _ ht
  · exact ht

theorem resetLinks_priv (P : σ → Prop) (h : ∀ l n m e, P e.priv → P (M.resetMinor l n m e).2.priv) (n m : Nat)
    (s : State σ K) (hs : P s.env.priv) : P (resetLinks M c n m s).env.priv := by
  unfold resetLinks
  refine loop_inv (P := fun _ (t : State σ K) => P t.env.priv) _ hs fun k _ t ht => ?_
  dsimp only
  split
  · exact h _ _ _ _ ht
  · exact ht

/-- The answer of link `b`, polled in a state in which what the links before it keep still holds. -/
theorem poll_at (P : σ → Prop) (b : Nat) (hb : b < c.numLinks) (hnl : c.nonLinear b = true) (n m : Nat)
    (h : ∀ l e, l < b → P e.priv → P (M.confirm l n m e).2.priv) (e : Env σ K) (hs : P e.priv) :
    ∃ e', P e'.priv ∧ (b, (M.confirm b n m e').1) ∈ (confirmSolution M c n m e).answers := by
  let Q : Nat → Poll σ K → Prop := fun k t =>
    (k ≤ b → P t.env.priv) ∧ (b < k → ∃ e', P e'.priv ∧ (b, (M.confirm b n m e').1) ∈ t.answers)
  have hQ : Q c.numLinks (confirmSolution M c n m e) := by
    refine loop_inv Q _ ⟨fun _ => hs, fun h => by omega⟩ ?_
    rintro k - t ⟨h1, h2⟩
    dsimp only
    split
    · rename_i hk
      refine ⟨fun hkb => h k _ (by omega) (h1 (by omega)), fun hbk => ?_⟩
      by_cases hkb : k = b
      · subst hkb
        exact ⟨t.env, h1 le_rfl, by simp⟩
      · obtain ⟨e', q1, q2⟩ := h2 (by omega)
        exact ⟨e', q1, List.mem_append_left _ q2⟩
    · rename_i hk
      refine ⟨fun hkb => h1 (by omega), fun hbk => ?_⟩
      have hkb : k ≠ b := by rintro rfl; exact hk hnl
      exact h2 (by omega)
  exact hQ.2 hb

/-- What the poll of link `b` establishes and the polls of the others keep. -/
theorem poll_sets (R : σ → Prop) (b : Nat) (hb : b < c.numLinks) (hnl : c.nonLinear b = true) (n m : Nat) (P : σ → Prop)
    (hP : ∀ l e, P e.priv → P (M.confirm l n m e).2.priv)
    (h1 : ∀ e, P e.priv → R (M.confirm b n m e).2.priv) (h2 : ∀ l e, l ≠ b → R e.priv → R (M.confirm l n m e).2.priv)
    (e : Env σ K) (he : P e.priv) : R (confirmSolution M c n m e).env.priv := by
  let Q : Nat → Poll σ K → Prop := fun k t => P t.env.priv ∧ (b < k → R t.env.priv)
  have hQ : Q c.numLinks (confirmSolution M c n m e) := by
    refine loop_inv Q _ ⟨he, fun h => by omega⟩ ?_
    rintro k - t ⟨p, h⟩
    dsimp only
    split
    · refine ⟨hP _ _ p, fun hbk => ?_⟩
      by_cases hkb : k = b
      · subst hkb; exact h1 _ p
      · exact h2 _ _ hkb (h (by omega))
    · rename_i hk
      refine ⟨p, fun hbk => ?_⟩
      have hkb : k ≠ b := by rintro rfl; exact hk hnl
      exact h (by omega)
  exact hQ.2 hb

/-- What the reset of link `b` establishes and the resets of the others keep. -/
theorem reset_sets (R : σ → Prop) (b : Nat) (hb : b < c.numLinks) (hnl : c.nonLinear b = true) (n m : Nat)
    (h1 : ∀ e, R (M.resetMinor b n m e).2.priv) (h2 : ∀ l e, l ≠ b → R e.priv → R (M.resetMinor l n m e).2.priv)
    (s : State σ K) : R (resetLinks M c n m s).env.priv := by
  let Q : Nat → State σ K → Prop := fun k t => b < k → R t.env.priv
  have hQ : Q c.numLinks (resetLinks M c n m s) := by
    refine loop_inv Q _ (fun h => by omega) ?_
    intro k _ t h
    dsimp only
    split
    · intro hbk
      by_cases hkb : k = b
      · subst hkb; exact h1 _
      · exact h2 _ _ hkb (h (by omega))
    · rename_i hk
      intro hbk
      have hkb : k ≠ b := by rintro rfl; exact hk hnl
      exact h (by omega)
  exact hQ hb

/-- The body of a minor step up to the acceptance part. -/
theorem minorBody_priv (P : σ → Prop) (h1 : ∀ l e, P e.priv → P (M.step l e).priv)
    (h2 : ∀ l m e, P e.priv → P (M.minorStep l m e).priv)
    (h3 : ∀ l e, P e.priv → P (M.needAdmittanceUpdate l e).2.priv) (it : Iter σ K) (hs : P it.s.env.priv) :
    (∃ s, minorBody M c it = .numeric s) ∨ (∃ s, minorBody M c it = .nan s) ∨ (∃ s, minorBody M c it = .ub s) ∨
    (∃ s, minorBody M c it = .brk { it with
        s := s
        networkConverged := false } ∧ P s.env.priv ∧ s.hist = it.s.hist ∧ s.failCount = it.s.failCount) ∨
    ∃ s, minorBody M c it = acceptance M c { it with s := s } ∧ P s.env.priv ∧ s.hist = it.s.hist ∧
      s.failCount = it.s.failCount := by
  unfold minorBody
  dsimp only
  generalize (if it.s.maxMinor < it.s.lastMinor then it.s.lastMinor else it.s.maxMinor) = mx
  split
  · rename_i hd
    have hP := stepLinks_priv (c := c) P h1 h2 h3
      { it.s with
        minorCount := it.s.minorCount + 1
        maxMinor := mx } hs
    obtain ⟨e, cl, r, h⟩ := stepLinks_eq M c
      { it.s with
        minorCount := it.s.minorCount + 1
        maxMinor := mx }
    rw [h] at hP ⊢
    generalize hs1 : ({ it.s with
      env := e, rebuild := if c.worstCaseTiming = true then true else r
      minorCount := it.s.minorCount + 1, maxMinor := mx, calls := cl } :
        State σ K) = s1
    have hP1 : P s1.env.priv := by rw [← hs1]; exact hP
    have hh1 : s1.hist = it.s.hist ∧ s1.failCount = it.s.failCount := by rw [← hs1]; exact ⟨rfl, rfl⟩
    obtain ⟨d, p, m, r', sl, sf, ss, hv, -, -⟩ := buildAndSolve_eq c s1
    split
    · rename_i t ht
      rw [ht] at hv
      simp only [BuildOutcome.val] at hv
      refine Or.inr (Or.inr (Or.inr (Or.inr ⟨_, rfl, ?_, ?_, ?_⟩)))
      · rw [outputPotential_priv, overridePotential_env, hv]
        exact hP1
      · rw [(outputPotential_keeps _).1, (overridePotential_keeps _).1, hv]
        exact hh1.1
      · rw [(outputPotential_keeps _).2, (overridePotential_keeps _).2, hv]
        exact hh1.2
    · rename_i t ht
      rw [ht] at hv
      simp only [BuildOutcome.val] at hv
      refine Or.inr (Or.inr (Or.inr (Or.inl ⟨_, rfl, ?_, ?_, ?_⟩)))
      · rw [hv]; exact hP1
      · rw [hv]; exact hh1.1
      · rw [hv]; exact hh1.2
    · exact Or.inl ⟨_, rfl⟩
    · exact Or.inr (Or.inl ⟨_, rfl⟩)
    · exact Or.inr (Or.inr (Or.inl ⟨_, rfl⟩))
  · exact Or.inr (Or.inr (Or.inr (Or.inr ⟨_, rfl, hs, rfl, rfl⟩)))

/-- The acceptance part: record, private state and answer. -/
theorem acceptance_priv (it : Iter σ K) (hl : c.linear = false) (hm : c.mode = .normal) :
    let n := countConverged c it
    let q := confirmSolution M c n it.s.lastMinor it.s.env
    (q.result = .reject ∧ ∃ s t : State σ K, acceptance M c it = .next ⟨s, it.networkConverged, 0, .reject⟩ ∧
        t.env.priv = q.env.priv ∧ s.env = (resetLinks M c n t.lastMinor t).env ∧
        s.hist = it.s.hist ++ [pollRec M c it] ∧ s.failCount = it.s.failCount) ∨
    (q.result ≠ .reject ∧ ∃ s : State σ K, s.env.priv = q.env.priv ∧ s.hist = it.s.hist ++ [pollRec M c it] ∧
        s.failCount = it.s.failCount ∧
        ((q.result = .confirm ∧ 0 < n ∧ (acceptance M c it = .brk ⟨s, true, n, .confirm⟩ ∨
          (c.worstCaseTiming = true ∧ acceptance M c it = .next ⟨s, true, n, .confirm⟩))) ∨
         (¬ (q.result = .confirm ∧ 0 < n) ∧
           acceptance M c it = .next ⟨s, it.networkConverged, n, q.result⟩))) := by
  intro n q
  unfold acceptance
  rw [if_pos ⟨hl, hm⟩]
  dsimp only
  by_cases hr : q.result = .reject
  · left
    refine ⟨hr, ?_⟩
    rw [if_pos hr]
    refine ⟨_, _, rfl, ?_, rfl, ?_, ?_⟩
    · rw [outputPotential_priv]
      rfl
    · obtain ⟨e, cl, r, h⟩ := resetLinks_eq M c n
        (outputPotential c { (afterPoll it n q) with
          pot := copyVec c.size (afterPoll it n q).minorPot (afterPoll it n q).pot }).lastMinor
        (outputPotential c { (afterPoll it n q) with
          pot := copyVec c.size (afterPoll it n q).minorPot (afterPoll it n q).pot })
      rw [h]
      dsimp only
      rw [(outputPotential_keeps _).1]
      rfl
    · obtain ⟨e, cl, r, h⟩ := resetLinks_eq M c n
        (outputPotential c { (afterPoll it n q) with
          pot := copyVec c.size (afterPoll it n q).minorPot (afterPoll it n q).pot }).lastMinor
        (outputPotential c { (afterPoll it n q) with
          pot := copyVec c.size (afterPoll it n q).minorPot (afterPoll it n q).pot })
      rw [h]
      dsimp only
      rw [(outputPotential_keeps _).2]
      rfl
  · right
    refine ⟨hr, ?_⟩
    rw [if_neg hr]
    refine ⟨{ (afterPoll it n q) with minorPot := copyVec c.size (afterPoll it n q).pot (afterPoll it n q).minorPot },
      rfl, rfl, rfl, ?_⟩
    by_cases hc : q.result = .confirm ∧ 0 < n
    · left
      rw [if_pos hc]
      refine ⟨hc.1, hc.2, ?_⟩
      rw [hc.1]
      split
      · exact Or.inl rfl
      · rename_i hw
        refine Or.inr ⟨?_, rfl⟩
        by_contra h
        exact hw (.inr (by simpa using h))
    · right
      rw [if_neg hc]
      exact ⟨hc, rfl⟩

/-- The end of a step that did not converge. -/
theorem finishStep_failed (it : Iter σ K) (h : it.networkConverged = false) :
    (finishStep M c it).env.priv = it.s.env.priv ∧ (finishStep M c it).failCount = it.s.failCount + 1 ∧
    (finishStep M c it).hist = it.s.hist := by
  unfold finishStep
  dsimp only
  rw [h, if_neg Bool.false_ne_true]
  refine ⟨?_, ?_, ?_⟩
  · rw [outputPotential_priv, overridePotential_env]
  · rw [(outputPotential_keeps _).2, (overridePotential_keeps _).2]
  · rw [(outputPotential_keeps _).1, (overridePotential_keeps _).1]

/-- The end of a step that converged. -/
theorem finishStep_done (it : Iter σ K) (h : it.networkConverged = true) (P : σ → Prop)
    (h1 : ∀ e, P e.priv → P (M.transport e).priv) (h2 : ∀ l e, P e.priv → P (M.processOutputs l e).priv)
    (hs : P it.s.env.priv) :
    P (finishStep M c it).env.priv ∧ (finishStep M c it).failCount = it.s.failCount ∧
    (finishStep M c it).hist = it.s.hist := by
  unfold finishStep
  dsimp only
  rw [h, if_pos rfl]
  obtain ⟨s0, hs0⟩ : ∃ s0 : State σ K, s0 = { it.s with
      maxDecomp := if it.s.maxDecomp < it.s.lastDecomp then it.s.lastDecomp else it.s.maxDecomp
      env := M.transport it.s.env
      calls := it.s.calls ++ [Call.transport] } := ⟨_, rfl⟩
  have hk := linksOutputs_priv (c := c) P h2 s0 (by rw [hs0]; exact h1 _ hs)
  obtain ⟨e, he⟩ := linksOutputs_eq M c s0
  rw [← hs0]
  refine ⟨hk, ?_, ?_⟩
  · rw [he, hs0]
  · rw [he, hs0]

/-- All virtual functions keep a property of the private state. -/
structure Keeps (M : Methods σ K) (P : σ → Prop) : Prop where
  inputs : ∀ l e, P e.priv → P (M.processInputs l e).priv
  flows : ∀ e, P e.priv → P (M.resetFlows e).priv
  step : ∀ l e, P e.priv → P (M.step l e).priv
  minor : ∀ l m e, P e.priv → P (M.minorStep l m e).priv
  update : ∀ l e, P e.priv → P (M.needAdmittanceUpdate l e).2.priv
  confirm : ∀ l n m e, P e.priv → P (M.confirm l n m e).2.priv
  reset : ∀ l n m e, P e.priv → P (M.resetMinor l n m e).2.priv
  transport : ∀ e, P e.priv → P (M.transport e).priv
  outputs : ∀ l e, P e.priv → P (M.processOutputs l e).priv

/-- The beginning of a step. -/
theorem stepStart_priv (P : σ → Prop) (h1 : ∀ l e, P e.priv → P (M.processInputs l e).priv)
    (h2 : ∀ e, P e.priv → P (M.resetFlows e).priv) (s : State σ K) (hs : P s.env.priv) :
    P (stepStart M c s).env.priv ∧ (stepStart M c s).hist = [] ∧ (stepStart M c s).failCount = s.failCount := by
  refine ⟨?_, ?_, ?_⟩
  · unfold stepStart
    exact h2 _ (linksInputs_priv P h1 _ hs)
  · obtain ⟨e, h⟩ := stepStart_eq M c s
    rw [h]
  · obtain ⟨e, h⟩ := stepStart_eq M c s
    rw [h]

/-- Iterations and steps: `I` holds in the loop whenever the loop goes on, `J` when it ended. -/
theorem step_inv (I J : Iter σ K → Prop) (hl : c.linear = false) (hm : c.mode = .normal) (hp : c.paused = false)
    (s s' : State σ K) (h : Gunns.step M c s = .ok s')
    (h0 : I { s := { stepStart M c s with
                lastDecomp := 0
                lastMinor := 1 }
              networkConverged := false
              convergedStep := 0
              result := .confirm })
    (hlm : ∀ it k, I it → I { it with s := { it.s with lastMinor := k } })
    (hIJ : ∀ it, I it → J it)
    (hnext : ∀ it it', I it → minorBody M c it = .next it' → I it')
    (hbrk : ∀ it it', I it → minorBody M c it = .brk it' → J it') :
    ∃ it, J it ∧ s' = finishStep M c it := by
  obtain ⟨it, hit, rfl⟩ := step_ok M c s s' hp h
  refine ⟨it, ?_, rfl⟩
  unfold iterateMinorSteps at hit
  have hd : decide (c.linear = true ∨ c.mode ≠ .normal) = false := by
    rw [hl, hm]
    decide
  rw [hd] at hit
  refine minorLoop_inv I J hIJ (fun it it' hi hb => hlm _ _ (hnext it it' hi hb)) hbrk _ _ _ h0 hit

end Gunns
