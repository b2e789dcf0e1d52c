import Verif.Solver.StepLemmas
import Verif.Solver.Spec

/-!
# Acceptance of a solution, effects and agreement of potentials
-/

set_option linter.unusedSectionVars false

namespace Gunns

variable {σ K : Type _} [Field K] [LinearOrder K]

theorem Quiet.agree {f : Env σ K → Env σ K} (hf : Quiet f) {N L : Nat} {e : Env σ K} {pot : Nat → K}
    (h : Agree N L e pot) : Agree N L (f e) pot := by
  obtain ⟨h1, h2, h3⟩ := hf e
  refine ⟨fun n hn => by rw [h1]; exact h.nodes n hn, by rw [h1]; exact h.ground, ?_⟩
  intro l hl p hp hm
  rw [(h3 l).1] at hp
  rw [(h3 l).2] at hm ⊢
  rw [h1, h2]
  exact h.links l hl p hp hm

theorem outputPotential_agree (c : Cfg K) (s : State σ K) (hm : c.mode ≠ .dummy) :
    Agree c.size c.numLinks (outputPotential c s).env (outputPotential c s).pot := by
  unfold outputPotential
  rw [if_pos hm]
  refine ⟨fun n hn => by simp [hn], by simp, ?_⟩
  intro l hl p hp hn
  dsimp only at hp hn ⊢
  rw [if_pos ⟨hl, hp⟩]
  split
  · rfl
  · rw [if_pos (by omega)]

theorem confirmSolution_quiet (M : Methods σ K) (c : Cfg K) (hq : ∀ l a b, Quiet fun e => (M.confirm l a b e).2)
    (a b : Nat) : Quiet fun e => (confirmSolution M c a b e).env := by
  intro e
  unfold confirmSolution
  refine loop_inv (P := fun _ (p : Poll σ K) => p.env.nodePot = e.nodePot ∧ p.env.linkPot = e.linkPot ∧
    ∀ l, (p.env.views l).ports = (e.views l).ports ∧ (p.env.views l).nodeMap = (e.views l).nodeMap) _ ?_ ?_
  · exact ⟨rfl, rfl, fun _ => ⟨rfl, rfl⟩⟩
  · rintro k - p ⟨h1, h2, h3⟩
    split
    · obtain ⟨g1, g2, g3⟩ := hq k a b p.env
      exact ⟨g1.trans h1, g2.trans h2, fun l => ⟨(g3 l).1.trans (h3 l).1, (g3 l).2.trans (h3 l).2⟩⟩
    · exact ⟨h1, h2, h3⟩

theorem resetLinks_agree (M : Methods σ K) (c : Cfg K)
    (hq : ∀ l a b, Quiet fun e => (M.resetMinor l a b e).2) (a b : Nat) (s : State σ K) {pot : Nat → K}
    (h : Agree c.size c.numLinks s.env pot) : Agree c.size c.numLinks (resetLinks M c a b s).env pot := by
  unfold resetLinks
  refine loop_inv (P := fun _ (t : State σ K) => Agree c.size c.numLinks t.env pot) _ h ?_
  rintro k - t ht
  split
  · exact (hq k a b).agree ht
  · exact ht

theorem resetLinks_fields (M : Methods σ K) (c : Cfg K) (a b : Nat) (s : State σ K) :
    (resetLinks M c a b s).pot = s.pot ∧ (resetLinks M c a b s).minorPot = s.minorPot ∧
    (resetLinks M c a b s).hist = s.hist := by
  obtain ⟨e, cl, r, h⟩ := resetLinks_eq M c a b s
  rw [h]
  exact ⟨rfl, rfl, rfl⟩

theorem outputPotential_fields (c : Cfg K) (s : State σ K) :
    (outputPotential c s).pot = s.pot ∧ (outputPotential c s).minorPot = s.minorPot ∧
    (outputPotential c s).hist = s.hist ∧ (outputPotential c s).calls = s.calls ∧
    (outputPotential c s).env.ovr = s.env.ovr ∧ (outputPotential c s).env.views = s.env.views := by
  unfold outputPotential
  split
  · exact ⟨rfl, rfl, rfl, rfl, rfl, rfl⟩
  · exact ⟨rfl, rfl, rfl, rfl, rfl, rfl⟩

theorem outputPotential_lastMinor (c : Cfg K) (s : State σ K) : (outputPotential c s).lastMinor = s.lastMinor :=
  (outputPotential_frame c s).1.lastMinor

/-- The record the acceptance part appends. -/
def pollRec (M : Methods σ K) (c : Cfg K) (it : Iter σ K) : MinorRec K :=
  let p := confirmSolution M c (countConverged c it) it.s.lastMinor it.s.env
  { step := it.s.lastMinor, skipped := decide (it.result = .delay), before := it.s.minorPot
    pot := it.s.pot, convergedStep := countConverged c it, answers := p.answers, result := p.result }

/-- What the acceptance part does in a non-linear network in NORMAL mode. -/
inductive AcceptCase (M : Methods σ K) (c : Cfg K) (it : Iter σ K) : BodyOutcome σ K → Prop
  | reject (s' : State σ K) (hr : (pollRec M c it).result = .reject)
      (hh : s'.hist = it.s.hist ++ [pollRec M c it]) (hm : s'.minorPot = it.s.minorPot)
      (hp : ∀ n, n < c.size → s'.pot n = it.s.minorPot n) :
      AcceptCase M c it (.next ⟨s', it.networkConverged, 0, .reject⟩)
  | go (s' : State σ K) (hr : (pollRec M c it).result ≠ .reject)
      (hh : s'.hist = it.s.hist ++ [pollRec M c it]) (hm : ∀ n, n < c.size → s'.minorPot n = it.s.pot n)
      (hp : s'.pot = it.s.pot) (hc : (pollRec M c it).result = .confirm → countConverged c it = 0) :
      AcceptCase M c it (.next ⟨s', it.networkConverged, countConverged c it, (pollRec M c it).result⟩)
  | done (s' : State σ K) (hr : (pollRec M c it).result = .confirm)
      (hh : s'.hist = it.s.hist ++ [pollRec M c it]) (hm : ∀ n, n < c.size → s'.minorPot n = it.s.pot n)
      (hp : s'.pot = it.s.pot) (hc : 0 < countConverged c it) :
      AcceptCase M c it (.brk ⟨s', true, countConverged c it, .confirm⟩)
  | wait (s' : State σ K) (hr : (pollRec M c it).result = .confirm)
      (hh : s'.hist = it.s.hist ++ [pollRec M c it]) (hm : ∀ n, n < c.size → s'.minorPot n = it.s.pot n)
      (hp : s'.pot = it.s.pot) (hc : 0 < countConverged c it) (hw : c.worstCaseTiming = true) :
      AcceptCase M c it (.next ⟨s', true, countConverged c it, .confirm⟩)

theorem acceptance_cases (M : Methods σ K) (c : Cfg K) (it : Iter σ K) (hl : c.linear = false)
    (hm : c.mode = .normal) : AcceptCase M c it (acceptance M c it) := by
  unfold acceptance
  rw [if_pos ⟨hl, hm⟩]
  dsimp only
  split
  · rename_i hr
    refine AcceptCase.reject _ hr ?_ ?_ ?_
    · rw [(resetLinks_fields ..).2.2, (outputPotential_fields ..).2.2.1]; rfl
    · rw [(resetLinks_fields ..).2.1, (outputPotential_fields ..).2.1]; rfl
    · intro n hn
      rw [(resetLinks_fields ..).1, (outputPotential_fields ..).1]
      simp [copyVec, hn, afterPoll]
  · rename_i hr
    split
    · rename_i hc
      split
      · rw [hc.1]
        exact AcceptCase.done _ hc.1 rfl (fun n hn => by simp [copyVec, hn, afterPoll]) rfl hc.2
      · rename_i hw
        rw [hc.1]
        refine AcceptCase.wait _ hc.1 rfl (fun n hn => by simp [copyVec, hn, afterPoll]) rfl hc.2 ?_
        by_contra h
        exact hw (.inr (by simpa using h))
    · rename_i hc
      refine AcceptCase.go _ hr rfl (fun n hn => by simp [copyVec, hn, afterPoll]) rfl ?_
      intro h
      by_contra h0
      exact hc ⟨h, Nat.pos_of_ne_zero h0⟩

theorem acceptance_linear (M : Methods σ K) (c : Cfg K) (it : Iter σ K) (h : ¬ (c.linear = false ∧ c.mode = .normal)) :
    acceptance M c it = .next it := by
  unfold acceptance
  rw [if_neg h]

/-- State on which the acceptance part of a minor step works: `it1` follows `it`. -/
inductive Solved (M : Methods σ K) (c : Cfg K) (it : Iter σ K) : Iter σ K → Prop
  | skip (s' : State σ K) (hd : it.result = .delay) (hp : s'.pot = it.s.pot) (hm : s'.minorPot = it.s.minorPot)
      (hh : s'.hist = it.s.hist) (he : s'.env = it.s.env) (hc : s'.calls = it.s.calls) :
      Solved M c it { it with s := s' }
  | solve (s' : State σ K) (hd : it.result ≠ .delay)
      (hm : c.mode = .normal → s'.minorPot = it.s.minorPot) (hh : s'.hist = it.s.hist)
      (ha : c.mode ≠ .dummy → Agree c.size c.numLinks s'.env s'.pot)
      (hc : s'.calls = it.s.calls ++
        (if it.s.lastMinor = 1 then (List.range c.numLinks).map Call.step
         else ((List.range c.numLinks).filter (fun l => c.nonLinear l)).map (Call.minor · it.s.lastMinor))) :
      Solved M c it { it with s := s' }

/-- A minor step either ends the loop without solution, or goes on to the acceptance part. -/
inductive BodyCase (M : Methods σ K) (c : Cfg K) (it : Iter σ K) : BodyOutcome σ K → Prop
  | numeric (s' : State σ K) : BodyCase M c it (.numeric s')
  | nan (s' : State σ K) : BodyCase M c it (.nan s')
  | ub (s' : State σ K) : BodyCase M c it (.ub s')
  | limit (s' : State σ K) (hd : it.result ≠ .delay) (hm : c.mode = .normal)
      (hh : s'.hist = it.s.hist)
      (hc : s'.calls = it.s.calls ++
        (if it.s.lastMinor = 1 then (List.range c.numLinks).map Call.step
         else ((List.range c.numLinks).filter (fun l => c.nonLinear l)).map (Call.minor · it.s.lastMinor)))
      (hd : c.decompositionLimit ≤ it.s.lastDecomp) :
      BodyCase M c it (.brk { it with s := s', networkConverged := false })
  | accept (it1 : Iter σ K) (h : Solved M c it it1) (hl : it1.s.lastMinor = it.s.lastMinor) :
      BodyCase M c it (acceptance M c it1)

theorem buildAndSolve_limit (c : Cfg K) (s t : State σ K) (h : buildAndSolve c s = .limit t) :
    c.mode = .normal ∧ c.decompositionLimit ≤ s.lastDecomp := by
  obtain ⟨m, r, hb⟩ := buildSystem_eq c s
  unfold buildAndSolve at h
  dsimp only at h
  rw [hb] at h
  obtain ⟨p, l, f, ht⟩ := trySor_eq c (buildSource c.size (Env.links c s.env)) { s with mat := m, rebuild := r }
  rw [ht] at h
  split at h
  · split at h
    · rename_i h2
      split at h
      · split at h
        · exact (solveSystem_not_limit _ _ _ _ h).elim
        · exact (factor_not_limit _ _ _ h).elim
      · rename_i h3
        exact ⟨h2.2, by simpa using h3⟩
    · exact (solveSystem_not_limit _ _ _ _ h).elim
  · exact absurd h (by simp)

theorem minorBody_cases (M : Methods σ K) (c : Cfg K) (it : Iter σ K) : BodyCase M c it (minorBody M c it) := by
  unfold minorBody
  dsimp only
  generalize (if it.s.maxMinor < it.s.lastMinor then it.s.lastMinor else it.s.maxMinor) = mx
  split
  · rename_i hd
    obtain ⟨e, cl, r, h⟩ := stepLinks_eq M c { it.s with minorCount := it.s.minorCount + 1, maxMinor := mx }
    have hcl := (stepLinks_calls M c { it.s with minorCount := it.s.minorCount + 1, maxMinor := mx }).1
    rw [h] at hcl ⊢
    dsimp only at hcl
    generalize hs1 : ({ it.s with
      env := e, rebuild := if c.worstCaseTiming = true then true else r
      minorCount := it.s.minorCount + 1, maxMinor := mx, calls := cl } :
        State σ K) = s1
    obtain ⟨d, p, m, r', sl, sf, ss, hv, -, -⟩ := buildAndSolve_eq c s1
    split
    · rename_i t ht
      rw [ht] at hv
      simp only [BuildOutcome.val] at hv
      refine BodyCase.accept _ (Solved.solve _ hd ?_ ?_ ?_ ?_) ?_
      · intro hm
        rw [(outputPotential_fields ..).2.1]
        unfold overridePotential
        rw [hm, hv, ← hs1]
      · rw [(outputPotential_fields ..).2.2.1]
        obtain ⟨p', m', ho⟩ := overridePotential_eq c t
        rw [ho, hv, ← hs1]
      · exact fun hm => outputPotential_agree c _ hm
      · rw [(outputPotential_fields ..).2.2.2.1]
        obtain ⟨p', m', ho⟩ := overridePotential_eq c t
        rw [ho, hv, ← hs1]
        exact hcl
      · dsimp only
        rw [outputPotential_lastMinor]
        obtain ⟨p', m', ho⟩ := overridePotential_eq c t
        rw [ho, hv, ← hs1]
    · rename_i t ht
      have hl := buildAndSolve_limit c s1 t ht
      rw [ht] at hv
      simp only [BuildOutcome.val] at hv
      refine BodyCase.limit t hd hl.1 ?_ ?_ ?_
      · rw [hv, ← hs1]
      · rw [hv, ← hs1]; exact hcl
      · have := hl.2
        rw [← hs1] at this
        exact this
    · exact .numeric _
    · exact .nan _
    · exact .ub _
  · rename_i hd
    exact BodyCase.accept _ (Solved.skip _ (not_not.mp hd) rfl rfl rfl rfl rfl) rfl

end Gunns
