import Verif.Solver.AcceptLemmas

/-!
# The minor step loop: effects, acceptance and agreement of potentials
-/

set_option linter.unusedSectionVars false

namespace Gunns

variable {σ K : Type _} [Field K] [LinearOrder K]

/-! ## Calls -/

/-- `l` extends the calls of `s` by calls that are neither effects nor link steps. -/
def Mild (s s' : State σ K) : Prop :=
  ∃ l, s'.calls = s.calls ++ l ∧ ∀ x ∈ l, Call.effect x = false ∧ Call.isStep x = false

theorem acceptance_calls (M : Methods σ K) (c : Cfg K) (it : Iter σ K) :
    Mild it.s (acceptance M c it).val := by
  have hp : Mild it.s (afterPoll it (countConverged c it)
      (confirmSolution M c (countConverged c it) it.s.lastMinor it.s.env)) := by
    refine ⟨_, rfl, ?_⟩
    rw [(confirmSolution_spec M c _ _ _).2.1]
    intro x hx
    obtain ⟨l, -, rfl⟩ := List.mem_map.mp hx
    exact ⟨rfl, rfl⟩
  unfold acceptance
  split
  · dsimp only
    split
    · simp only [BodyOutcome.val]
      obtain ⟨l, hl, hx⟩ := hp
      refine ⟨l ++ ((List.range c.numLinks).filter (fun l => c.nonLinear l)).map Call.reset, ?_, ?_⟩
      · rw [resetLinks_calls, (outputPotential_fields ..).2.2.2.1, hl, List.append_assoc]
      · intro x h
        rcases List.mem_append.mp h with h | h
        · exact hx x h
        · obtain ⟨l, -, rfl⟩ := List.mem_map.mp h
          exact ⟨rfl, rfl⟩
    · split
      · split
        · exact hp
        · exact hp
      · exact hp
  · exact ⟨[], by simp [BodyOutcome.val], by simp⟩

/-- What is known about the calls at the start of a round. -/
def CallsInv (c : Cfg K) (base : List Call) (it : Iter σ K) : Prop :=
  it.s.calls.filter Call.effect = base.filter Call.effect ∧
  ((it.s.lastMinor = 1 ∧ it.result ≠ .delay ∧ it.s.calls.filter Call.isStep = base.filter Call.isStep) ∨
    (1 < it.s.lastMinor ∧
      it.s.calls.filter Call.isStep = base.filter Call.isStep ++ (List.range c.numLinks).map Call.step))

/-- What is known about the calls of a state in the end. -/
def CallsFin (c : Cfg K) (base : List Call) (s : State σ K) : Prop :=
  s.calls.filter Call.effect = base.filter Call.effect ∧
  s.calls.filter Call.isStep = base.filter Call.isStep ++ (List.range c.numLinks).map Call.step

theorem Mild.filter {s s' : State σ K} (h : Mild s s') :
    s'.calls.filter Call.effect = s.calls.filter Call.effect ∧
    s'.calls.filter Call.isStep = s.calls.filter Call.isStep := by
  obtain ⟨l, hl, hx⟩ := h
  have h1 : l.filter Call.effect = [] := List.filter_eq_nil_iff.mpr fun x h => by simp [(hx x h).1]
  have h2 : l.filter Call.isStep = [] := List.filter_eq_nil_iff.mpr fun x h => by simp [(hx x h).2]
  constructor
  · rw [hl, List.filter_append, h1, List.append_nil]
  · rw [hl, List.filter_append, h2, List.append_nil]

theorem linkCalls_fin (c : Cfg K) (base : List Call) (it : Iter σ K) (s' : State σ K) (hi : CallsInv c base it)
    (hc : s'.calls = it.s.calls ++
        (if it.s.lastMinor = 1 then (List.range c.numLinks).map Call.step
         else ((List.range c.numLinks).filter (fun l => c.nonLinear l)).map (Call.minor · it.s.lastMinor))) :
    CallsFin c base s' := by
  obtain ⟨h1, h2⟩ := hi
  have e1 : ((List.range c.numLinks).map Call.step).filter Call.effect = [] :=
    List.filter_eq_nil_iff.mpr fun x h => by
      obtain ⟨l, -, rfl⟩ := List.mem_map.mp h; simp [Call.effect]
  have e2 : ((List.range c.numLinks).map Call.step).filter Call.isStep = (List.range c.numLinks).map Call.step :=
    List.filter_eq_self.mpr fun x h => by
      obtain ⟨l, -, rfl⟩ := List.mem_map.mp h; simp [Call.isStep]
  have e3 : (((List.range c.numLinks).filter (fun l => c.nonLinear l)).map
      (Call.minor · it.s.lastMinor)).filter Call.effect = [] :=
    List.filter_eq_nil_iff.mpr fun x h => by
      obtain ⟨l, -, rfl⟩ := List.mem_map.mp h; simp [Call.effect]
  have e4 : (((List.range c.numLinks).filter (fun l => c.nonLinear l)).map
      (Call.minor · it.s.lastMinor)).filter Call.isStep = [] :=
    List.filter_eq_nil_iff.mpr fun x h => by
      obtain ⟨l, -, rfl⟩ := List.mem_map.mp h; simp [Call.isStep]
  rcases h2 with ⟨g1, g2, g3⟩ | ⟨g1, g3⟩
  · rw [if_pos g1] at hc
    exact ⟨by rw [hc, List.filter_append, e1, List.append_nil, h1],
      by rw [hc, List.filter_append, e2, g3]⟩
  · rw [if_neg (by omega)] at hc
    exact ⟨by rw [hc, List.filter_append, e3, List.append_nil, h1],
      by rw [hc, List.filter_append, e4, List.append_nil, g3]⟩

theorem minorLoop_calls (M : Methods σ K) (c : Cfg K) (base : List Call) (fuel : Nat) :
    ∀ it it' : Iter σ K, CallsInv c base it → 1 ≤ it.s.lastMinor → (fuel = 0 → CallsFin c base it.s) →
      minorLoop M c fuel it = .ok it' → CallsFin c base it'.s := by
  induction fuel with
  | zero =>
    intro it it' _ _ h0 h
    simp only [minorLoop, Outcome.ok.injEq] at h
    exact h ▸ h0 rfl
  | succ fuel ih =>
    intro it it' hi h1 _ h
    have hb := minorBody_cases M c it
    have hbc := minorBody_counts M c it
    unfold minorLoop at h
    generalize hB : minorBody M c it = B at hb hbc h
    cases hb with
    | numeric s' => simp at h
    | nan s' => simp at h
    | ub s' => simp at h
    | limit s' hd hm hh hc =>
      simp only [Outcome.ok.injEq] at h
      subst h
      exact linkCalls_fin c base it s' hi hc
    | accept it1 hs hl =>
      have hm := acceptance_calls M c it1
      have hfin1 : CallsFin c base it1.s := by
        cases hs with
        | skip s' hd hp hm hh he hc =>
          rcases hi.2 with ⟨_, g2, _⟩ | ⟨g1, g3⟩
          · exact absurd hd g2
          · exact ⟨by rw [hc]; exact hi.1, by rw [hc]; exact g3⟩
        | solve s' hd hm hh ha hc => exact linkCalls_fin c base it s' hi hc
      have hfin2 : CallsFin c base (acceptance M c it1).val :=
        ⟨hm.filter.1.trans hfin1.1, hm.filter.2.trans hfin1.2⟩
      generalize acceptance M c it1 = B at h hfin2 hbc
      split at h
      · rename_i it2
        refine ih _ _ ?_ ?_ ?_ h
        · refine ⟨hfin2.1, .inr ⟨?_, hfin2.2⟩⟩
          have := hbc.lastMinor
          simp only [BodyOutcome.val] at this ⊢
          omega
        · have := hbc.lastMinor
          simp only [BodyOutcome.val] at this ⊢
          omega
        · exact fun _ => hfin2
      · simp only [Outcome.ok.injEq] at h
        subst h
        exact hfin2
      · simp at h
      · simp at h
      · simp at h

/-! ## Networks that are not iterated -/

theorem minorLoop_single (M : Methods σ K) (c : Cfg K) (hc : c.linear = true ∨ c.mode ≠ .normal)
    (hd : 1 ≤ c.decompositionLimit) (it it' : Iter σ K) (h0 : it.networkConverged = true)
    (hl : it.s.lastDecomp = 0)
    (h : minorLoop M c 1 it = .ok it') : it'.networkConverged = true := by
  have hb := minorBody_cases M c it
  unfold minorLoop at h
  generalize hB : minorBody M c it = B at hb h
  cases hb with
  | numeric s' => simp at h
  | nan s' => simp at h
  | ub s' => simp at h
  | limit s' _ hm _ _ hlim => omega
  | accept it1 hs _ =>
    rw [acceptance_linear M c it1 (by rintro ⟨h1, h2⟩; rcases hc with hc | hc <;> simp_all)] at h
    simp only [minorLoop, Outcome.ok.injEq] at h
    subst h
    cases hs with
    | skip => exact h0
    | solve => exact h0

/-! ## Agreement of potentials -/

theorem acceptance_agree (M : Methods σ K) (c : Cfg K) (it : Iter σ K) (hm : c.mode ≠ .dummy)
    (hq : ∀ l a b, Quiet fun e => (M.confirm l a b e).2)
    (hr : ∀ l a b, Quiet fun e => (M.resetMinor l a b e).2)
    (h : Agree c.size c.numLinks it.s.env it.s.pot) :
    Agree c.size c.numLinks (acceptance M c it).val.env (acceptance M c it).val.pot := by
  have hp := (confirmSolution_quiet M c hq (countConverged c it) it.s.lastMinor).agree h
  unfold acceptance
  split
  · dsimp only
    split
    · simp only [BodyOutcome.val]
      rw [(resetLinks_fields ..).1]
      exact resetLinks_agree M c hr _ _ _ (outputPotential_agree c _ hm)
    · split
      · split
        · exact hp
        · exact hp
      · exact hp
  · exact h

theorem minorLoop_agree (M : Methods σ K) (c : Cfg K) (hm : c.mode ≠ .dummy)
    (hq : ∀ l a b, Quiet fun e => (M.confirm l a b e).2)
    (hr : ∀ l a b, Quiet fun e => (M.resetMinor l a b e).2) (fuel : Nat) :
    ∀ it it' : Iter σ K, (it.result = .delay → Agree c.size c.numLinks it.s.env it.s.pot) →
      (fuel = 0 → Agree c.size c.numLinks it.s.env it.s.pot) →
      minorLoop M c fuel it = .ok it' →
      it'.networkConverged = false ∨ Agree c.size c.numLinks it'.s.env it'.s.pot := by
  induction fuel with
  | zero =>
    intro it it' _ h0 h
    simp only [minorLoop, Outcome.ok.injEq] at h
    subst h
    exact .inr (h0 rfl)
  | succ fuel ih =>
    intro it it' hi _ h
    have hb := minorBody_cases M c it
    unfold minorLoop at h
    generalize hB : minorBody M c it = B at hb h
    cases hb with
    | numeric s' => simp at h
    | nan s' => simp at h
    | ub s' => simp at h
    | limit s' =>
      simp only [Outcome.ok.injEq] at h
      subst h
      exact .inl rfl
    | accept it1 hs hl =>
      have h1 : Agree c.size c.numLinks it1.s.env it1.s.pot := by
        cases hs with
        | skip s' hd hp hm hh he hc => exact he ▸ hp ▸ hi hd
        | solve s' hd hm' hh ha hc => exact ha hm
      have h2 := acceptance_agree M c it1 hm hq hr h1
      generalize acceptance M c it1 = B at h h2
      split at h
      · refine ih _ _ ?_ ?_ h <;> exact fun _ => h2
      · simp only [Outcome.ok.injEq] at h
        subst h
        exact .inr h2
      · simp at h
      · simp at h
      · simp at h

/-! ## Acceptance -/

/-- Links between the records and the saved potentials. -/
structure HistInv (c : Cfg K) (s : State σ K) : Prop where
  chained : Chained c.size s.hist
  last : ∀ pre a, s.hist = pre ++ [a] →
    ∀ n, n < c.size → s.minorPot n = if a.result = .reject then a.before n else a.pot n

/-- The state of the loop before a round, for non-linear networks outside worst case timing. -/
structure AccInv (c : Cfg K) (it : Iter σ K) : Prop where
  notYet : it.networkConverged = false
  run : (it.convergedStep = 0 ∧ it.result ≠ .delay) ∨
    (0 < it.convergedStep ∧ it.result = .delay ∧ ∃ pre run, it.s.hist = pre ++ run ∧
      ConvergedRun c.size c.tolerance run it.s.pot ∧ ∀ r ∈ run, r.result = .delay)

theorem Chained.snoc {N : Nat} {h : List (MinorRec K)} {r : MinorRec K} (hc : Chained N h)
    (hl : ∀ pre a, h = pre ++ [a] →
      ∀ n, n < N → r.before n = if a.result = .reject then a.before n else a.pot n) :
    Chained N (h ++ [r]) := by
  intro pre a b post he n hn
  rcases List.eq_nil_or_concat post with rfl | ⟨post', x, rfl⟩
  · have h2 : h ++ [r] = (pre ++ [a]) ++ [b] := by simpa using he
    obtain ⟨h3, h4⟩ := List.append_inj' h2 rfl
    simp only [List.cons.injEq, and_true] at h4
    subst h4
    exact hl pre a h3 n hn
  · have h2 : h ++ [r] = (pre ++ a :: b :: post') ++ [x] := by simpa using he
    obtain ⟨h3, -⟩ := List.append_inj' h2 rfl
    exact hc pre a b post' h3 n hn

/-- Records and saved potentials after the acceptance part. -/
theorem accept_hist (M : Methods σ K) (c : Cfg K) (it : Iter σ K) (hl : c.linear = false) (hm : c.mode = .normal)
    (h : HistInv c it.s) : HistInv c (acceptance M c it).val := by
  have hs : Chained c.size (it.s.hist ++ [pollRec M c it]) := h.chained.snoc fun pre a ha n hn => h.last pre a ha n hn
  have key : ∀ s' : State σ K, s'.hist = it.s.hist ++ [pollRec M c it] →
      (∀ n, n < c.size → s'.minorPot n =
        if (pollRec M c it).result = .reject then it.s.minorPot n else it.s.pot n) → HistInv c s' := by
    intro s' hh hmp
    refine ⟨by rw [hh]; exact hs, fun pre a ha n hn => ?_⟩
    rw [hh] at ha
    obtain ⟨-, h4⟩ := List.append_inj' ha rfl
    simp only [List.cons.injEq, and_true] at h4
    subst h4
    exact hmp n hn
  have hcases := acceptance_cases M c it hl hm
  generalize acceptance M c it = B at hcases
  cases hcases with
  | reject s' hr hh hm' hp => exact key s' hh fun n hn => by rw [if_pos hr, hm']
  | go s' hr hh hm' hp hc => exact key s' hh fun n hn => by rw [if_neg hr, hm' n hn]
  | done s' hr hh hm' hp hc => exact key s' hh fun n hn => by rw [hr, if_neg (by simp), hm' n hn]
  | wait s' hr hh hm' hp hc => exact key s' hh fun n hn => by rw [hr, if_neg (by simp), hm' n hn]

/-- What is known of an accepted solution. -/
structure Accepted (c : Cfg K) (s : State σ K) : Prop where
  run : ∃ pre run last, s.hist = pre ++ run ++ [last] ∧ ConvergedRun c.size c.tolerance (run ++ [last]) s.pot ∧
    (∀ r ∈ run, r.result = .delay) ∧
    last.answers.map Prod.fst = (List.range c.numLinks).filter (fun l => c.nonLinear l) ∧
    ∀ a ∈ last.answers, a.2 = .confirm

theorem pollRec_confirm (M : Methods σ K) (c : Cfg K) (it : Iter σ K) (hr : (pollRec M c it).result = .confirm)
    (hc : 0 < countConverged c it) :
    (pollRec M c it).answers.map Prod.fst = (List.range c.numLinks).filter (fun l => c.nonLinear l) ∧
    ∀ a ∈ (pollRec M c it).answers, a.2 = .confirm := by
  obtain ⟨h1, -, h2, h3⟩ := confirmSolution_spec M c (countConverged c it) it.s.lastMinor it.s.env
  refine ⟨h1, ?_⟩
  change (confirmSolution M c (countConverged c it) it.s.lastMinor it.s.env).result = .confirm at hr
  rw [hr] at h2 h3
  have h4 : ¬ ∃ l, (l, SolRes.reject) ∈ (pollRec M c it).answers := fun h => absurd (h2.mpr h) (by simp)
  have h5 : ¬ ∃ l, (l, SolRes.delay) ∈ (pollRec M c it).answers :=
    fun h => absurd (h3.mpr ⟨h4, hc, h⟩) (by simp)
  rintro ⟨l, a⟩ ha
  cases a with
  | reject => exact absurd ⟨l, ha⟩ h4
  | delay => exact absurd ⟨l, ha⟩ h5
  | confirm => rfl

/-- The run the record of this round belongs to, when it counts as converged. -/
theorem pollRec_run (M : Methods σ K) (c : Cfg K) (it it1 : Iter σ K) (hs : Solved M c it it1) (hi : AccInv c it)
    (hc : 0 < countConverged c it1) :
    ∃ pre run, it1.s.hist = pre ++ run ∧
      ConvergedRun c.size c.tolerance (run ++ [pollRec M c it1]) it1.s.pot ∧ ∀ r ∈ run, r.result = .delay := by
  cases hs with
  | skip s' hd hp hm hh he hcl =>
    rcases hi.run with ⟨_, h2⟩ | ⟨h1, h2, pre, run, h3, ⟨r0, rest, h4, h5, h6, h7, h8⟩, h9⟩
    · exact absurd hd h2
    · refine ⟨pre, run, by dsimp only; rw [hh, h3], ⟨r0, rest ++ [pollRec M c { it with s := s' }],
        by rw [h4]; rfl, h5, h6, ?_, ?_⟩, h9⟩
      · intro r hr
        rcases List.mem_append.mp hr with hr | hr
        · rw [h7 r hr]; exact hp.symm
        · rw [List.mem_singleton.mp hr]; rfl
      · intro r hr
        rcases List.mem_append.mp hr with hr | hr
        · exact h8 r hr
        · rw [List.mem_singleton.mp hr]; simp [pollRec, hd]
  | solve s' hd hm hh ha hcl =>
    rcases hi.run with ⟨h1, h2⟩ | ⟨_, h2, _⟩
    · refine ⟨s'.hist, [], by simp, ⟨pollRec M c { it with s := s' }, [], rfl, ?_, ?_, ?_, by simp⟩, by simp⟩
      · simp [pollRec, hd]
      · unfold countConverged at hc
        dsimp only at hc
        split at hc
        · rename_i h
          rcases h with h | h
          · exact absurd h hd
          · exact (checkConvergence_iff c s').mp h
        · omega
      · intro r hr
        have hr : r = pollRec M c { it with s := s' } := by simpa using hr
        rw [hr]; rfl
    · exact absurd h2 hd

theorem minorLoop_accept (M : Methods σ K) (c : Cfg K) (hl : c.linear = false) (hm : c.mode = .normal)
    (hw : c.worstCaseTiming = false) (fuel : Nat) :
    ∀ it it' : Iter σ K, AccInv c it → minorLoop M c fuel it = .ok it' →
      it'.networkConverged = false ∨ Accepted c it'.s := by
  induction fuel with
  | zero =>
    intro it it' hi h
    simp only [minorLoop, Outcome.ok.injEq] at h
    subst h
    exact .inl hi.notYet
  | succ fuel ih =>
    intro it it' hi h
    have hb := minorBody_cases M c it
    unfold minorLoop at h
    generalize hB : minorBody M c it = B at hb h
    cases hb with
    | numeric s' => simp at h
    | nan s' => simp at h
    | ub s' => simp at h
    | limit s' =>
      simp only [Outcome.ok.injEq] at h
      subst h
      exact .inl rfl
    | accept it1 hs hlm =>
      have hcases := acceptance_cases M c it1 hl hm
      have hrun := pollRec_run M c it it1 hs hi
      have hny : it1.networkConverged = false := by cases hs <;> exact hi.notYet
      generalize acceptance M c it1 = B at hcases h
      cases hcases with
      | reject s' hr hh hm' hp => 
        refine ih _ _ ?_ h
        exact ⟨hny, .inl ⟨rfl, by simp⟩⟩
      | go s' hr hh hm' hp hc =>
        refine ih _ _ ?_ h
        refine ⟨hny, ?_⟩
        dsimp only
        rcases Nat.eq_zero_or_pos (countConverged c it1) with h0 | h0
        · refine .inl ⟨h0, fun hd => ?_⟩
          obtain ⟨-, -, -, h3⟩ := confirmSolution_spec M c (countConverged c it1) it1.s.lastMinor it1.s.env
          have := (h3.mp hd).2.1
          omega
        · obtain ⟨pre, run, h1, h2, h3⟩ := hrun h0
          have hd : (pollRec M c it1).result = .delay := by
            rcases hres : (pollRec M c it1).result with _ | _ | _
            · exact absurd hres hr
            · have := hc hres; omega
            · rfl
          refine .inr ⟨h0, hd, pre, run ++ [pollRec M c it1], by rw [hh, h1, List.append_assoc], hp ▸ h2, ?_⟩
          intro r hr
          rcases List.mem_append.mp hr with hr | hr
          · exact h3 r hr
          · rw [List.mem_singleton.mp hr]; exact hd
      | done s' hr hh hm' hp hc =>
        simp only [Outcome.ok.injEq] at h
        subst h
        obtain ⟨pre, run, h1, h2, h3⟩ := hrun hc
        obtain ⟨h4, h5⟩ := pollRec_confirm M c it1 hr hc
        exact .inr ⟨⟨pre, run, _, by rw [hh, h1], hp ▸ h2, h3, h4, h5⟩⟩
      | wait s' hr hh hm' hp hc hw' => rw [hw] at hw'; simp at hw'

theorem minorLoop_hist (M : Methods σ K) (c : Cfg K) (hl : c.linear = false) (hm : c.mode = .normal) (fuel : Nat) :
    ∀ it it' : Iter σ K, HistInv c it.s → minorLoop M c fuel it = .ok it' → Chained c.size it'.s.hist := by
  induction fuel with
  | zero =>
    intro it it' hi h
    simp only [minorLoop, Outcome.ok.injEq] at h
    subst h
    exact hi.chained
  | succ fuel ih =>
    intro it it' hi h
    have hb := minorBody_cases M c it
    unfold minorLoop at h
    generalize hB : minorBody M c it = B at hb h
    cases hb with
    | numeric s' => simp at h
    | nan s' => simp at h
    | ub s' => simp at h
    | limit s' hd hm hh =>
      simp only [Outcome.ok.injEq] at h
      subst h
      exact hh ▸ hi.chained
    | accept it1 hs hlm =>
      have h1 : HistInv c it1.s := by
        cases hs with
        | skip s' hd hp hm hh he hcl => exact ⟨by dsimp only; rw [hh]; exact hi.chained,
            by dsimp only; rw [hh, hm]; exact hi.last⟩
        | solve s' hd hm' hh ha hcl => exact ⟨by dsimp only; rw [hh]; exact hi.chained,
            by dsimp only; rw [hh, hm' hm]; exact hi.last⟩
      have h2 := accept_hist M c it1 hl hm h1
      generalize acceptance M c it1 = B at h h2
      split at h
      · refine ih _ _ ?_ h
        exact ⟨h2.chained, h2.last⟩
      · simp only [Outcome.ok.injEq] at h
        subst h
        exact h2.chained
      · simp at h
      · simp at h
      · simp at h

end Gunns

namespace Gunns

variable {σ K : Type _} [Field K] [LinearOrder K]

theorem acceptance_histLen (M : Methods σ K) (c : Cfg K) (it : Iter σ K) (hl : c.linear = false)
    (hm : c.mode = .normal) : (acceptance M c it).val.hist.length = it.s.hist.length + 1 := by
  have h := acceptance_cases M c it hl hm
  generalize acceptance M c it = B at h
  cases h with
  | reject s' hr hh => simp [BodyOutcome.val, hh]
  | go s' hr hh => simp [BodyOutcome.val, hh]
  | done s' hr hh => simp [BodyOutcome.val, hh]
  | wait s' hr hh => simp [BodyOutcome.val, hh]

/-- Each round leaves one record, but one stopped by the decomposition limit. -/
theorem minorLoop_histLen (M : Methods σ K) (c : Cfg K) (hl : c.linear = false) (hm : c.mode = .normal)
    (fuel : Nat) : ∀ it it' : Iter σ K, minorLoop M c fuel it = .ok it' →
      it'.s.hist.length + it.s.minorCount = it.s.hist.length + it'.s.minorCount ∨
      (it'.s.hist.length + it.s.minorCount + 1 = it.s.hist.length + it'.s.minorCount ∧
        it'.networkConverged = false ∧ c.decompositionLimit ≤ it'.s.lastDecomp) := by
  induction fuel with
  | zero =>
    intro it it' h
    simp only [minorLoop, Outcome.ok.injEq] at h
    subst h
    exact .inl rfl
  | succ fuel ih =>
    intro it it' h
    have hb := minorBody_cases M c it
    have hbc := minorBody_counts M c it
    unfold minorLoop at h
    generalize hB : minorBody M c it = B at hb h hbc
    cases hb with
    | numeric s' => simp at h
    | nan s' => simp at h
    | ub s' => simp at h
    | limit s' hd hm hh hc hlim =>
      simp only [Outcome.ok.injEq] at h
      subst h
      have h1 := hbc.minorCount
      obtain ⟨d, _, h2, _⟩ := hbc.decomp
      simp only [BodyOutcome.val] at h1 h2
      refine .inr ⟨by dsimp only; rw [hh, h1]; omega, rfl, by dsimp only; omega⟩
    | accept it1 hs hlm =>
      have h1 : it1.s.hist = it.s.hist := by
        cases hs with
        | skip s' hd hp hm hh => exact hh
        | solve s' hd hm' hh => exact hh
      have h2 := acceptance_histLen M c it1 hl hm
      rw [h1] at h2
      have h3 := hbc.minorCount
      generalize acceptance M c it1 = B at h h2 h3
      split at h
      · simp only [BodyOutcome.val] at h2 h3
        rcases ih _ _ h with h4 | ⟨h4, h5⟩
        · left
          dsimp only at h4
          omega
        · right
          dsimp only at h4
          exact ⟨by omega, h5⟩
      · simp only [Outcome.ok.injEq] at h
        subst h
        simp only [BodyOutcome.val] at h2 h3
        left
        omega
      · simp at h
      · simp at h
      · simp at h

theorem loop_id {σ' : Type _} (f : Nat → σ' → σ') (n : Nat) (s : σ') (h : ∀ k, k < n → f k s = s) :
    loop f n s = s :=
  loop_inv (P := fun _ t => t = s) n rfl fun k hk t ht => by rw [ht]; exact h k hk

theorem overridePotential_none (c : Cfg K) (s : State σ K) (hm : c.mode = .normal)
    (h : ∀ l, l < c.numLinks → ∀ p, p < (s.env.views l).ports → s.env.ovr l p = false) :
    overridePotential c s = s := by
  unfold overridePotential
  rw [hm]
  have : loop (overrideLink c.size s.env) c.numLinks s.pot = s.pot := by
    refine loop_id _ _ _ fun l hl => ?_
    unfold overrideLink
    refine loop_id _ _ _ fun p hp => ?_
    rw [if_neg (by simp [h l hl p hp])]
  rw [this]

/-- The state the minor steps start from. -/
def stepStart (M : Methods σ K) (c : Cfg K) (s : State σ K) : State σ K :=
  let s := linksInputs M c { s with majorCount := s.majorCount + 1, hist := [], calls := [], solves := []
                                    decomps := 0 }
  { s with env := M.resetFlows s.env }

theorem stepStart_eq (M : Methods σ K) (c : Cfg K) (s : State σ K) :
    ∃ e, stepStart M c s = { s with
      env := e, majorCount := s.majorCount + 1, hist := [], solves := [], decomps := 0
      calls := (List.range c.numLinks).map Call.inputs } := by
  unfold stepStart
  obtain ⟨e, h⟩ := linksInputs_eq M c { s with
    majorCount := s.majorCount + 1, hist := [], calls := [], solves := [], decomps := 0 }
  rw [h]
  exact ⟨_, by simp; rfl⟩

theorem step_eq (M : Methods σ K) (c : Cfg K) (s : State σ K) (hp : c.paused = false) :
    step M c s = match iterateMinorSteps M c (stepStart M c s) with
      | .ok it => .ok (finishStep M c it)
      | .numeric it => .numeric it.s
      | .nan it => .nan it.s
      | .ub it => .ub it.s := by
  unfold step
  rw [hp, if_neg (by simp)]
  rfl

theorem step_ok (M : Methods σ K) (c : Cfg K) (s s' : State σ K) (hp : c.paused = false)
    (h : step M c s = .ok s') :
    ∃ it, iterateMinorSteps M c (stepStart M c s) = .ok it ∧ s' = finishStep M c it := by
  rw [step_eq M c s hp] at h
  split at h
  · rename_i it hit
    simp only [Outcome.ok.injEq] at h
    exact ⟨it, hit, h.symm⟩
  · simp at h
  · simp at h
  · simp at h

end Gunns
