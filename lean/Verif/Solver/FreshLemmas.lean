import Verif.Solver.LoopLemmas

/-!
# The matrix used by a solution is the current one
-/

set_option linter.unusedSectionVars false

namespace Gunns

variable {σ K : Type _} [Field K] [LinearOrder K]

theorem AdmSame.trans {a b c : LinkView K} (h : AdmSame a b) (h' : AdmSame b c) : AdmSame a c :=
  ⟨h'.1.trans h.1, h'.2.1.trans h.2.1, h'.2.2.trans h.2.2⟩

theorem AdmSame.refl (a : LinkView K) : AdmSame a a := ⟨rfl, rfl, rfl⟩

theorem addLinkAdmittance_congr (N : Nat) {v v' : LinkView K} (h : AdmSame v v') (A : Vect K) :
    addLinkAdmittance N v' A = addLinkAdmittance N v A := by
  unfold addLinkAdmittance
  rw [h.1, h.2.1, h.2.2]

/-- The admittance matrix depends only on the admittance parts. -/
theorem buildAdmittance_congr (N L : Nat) {v v' : Nat → LinkView K} (h : ∀ j, j < L → AdmSame (v j) (v' j)) :
    buildAdmittance N ((List.range L).map v') = buildAdmittance N ((List.range L).map v) := by
  unfold buildAdmittance
  induction L with
  | zero => rfl
  | succ L ih =>
    rw [List.range_succ, List.map_append, List.map_append, List.foldl_append, List.foldl_append,
      ih fun j hj => h j (by omega)]
    simp only [List.map_cons, List.map_nil, List.foldl_cons, List.foldl_nil]
    exact addLinkAdmittance_congr N (h L (by omega)) _

/-- `B` are the factors of the conditioned matrix assembled from the links, found in one of the two modes. -/
def FactorOf (isl : Bool) (N L : Nat) (v : Nat → LinkView K) (B : Mat K) : Prop :=
  let A := asMat N (buildAdmittance N ((List.range L).map v))
  if isl then decomposeIslands N A (conditionAdmittance N A) = .ok B
  else decompose (conditionAdmittance N A) N = .ok B

theorem FactorOf.congr {isl : Bool} {N L : Nat} {v v' : Nat → LinkView K} {B : Mat K}
    (h : ∀ j, j < L → AdmSame (v j) (v' j)) (hf : FactorOf isl N L v B) : FactorOf isl N L v' B := by
  unfold FactorOf at hf ⊢
  rw [buildAdmittance_congr N L h]
  exact hf

/-- A change waits to be reported, or the matrix holds the factors. -/
def Ready (pend : Nat → σ → Prop) (N L : Nat) (B : Mat K) (e : Env σ K) : Prop :=
  (∃ j, j < L ∧ pend j e.priv) ∨ ∃ isl, FactorOf isl N L e.views B

theorem Honest.ready {pend : Nat → σ → Prop} {f : Env σ K → Env σ K} (hf : Honest pend f) {N L : Nat} {B : Mat K}
    {e : Env σ K} (h : Ready pend N L B e) : Ready pend N L B (f e) := by
  rcases h with ⟨j, hj, hp⟩ | ⟨isl, hB⟩
  · exact .inl ⟨j, hj, (hf e j).2 hp⟩
  · by_cases hex : ∃ j, j < L ∧ pend j (f e).priv
    · exact .inl hex
    · refine .inr ⟨isl, hB.congr fun j hj => ?_⟩
      rcases (hf e j).1 with h | h
      · exact h
      · exact absurd ⟨j, hj, h⟩ hex

/-- A direct solution with factors of the current matrix. -/
def GoodSolve (N L : Nat) (sol : Env σ K × (Nat → K)) : Prop :=
  ∃ isl B x0 x, FactorOf isl N L sol.1.views B ∧
    solve B (buildSource N ((List.range L).map sol.1.views)) x0 N = .ok x ∧ sol.2 = cleanPot N x

/-- Fields only `buildAndSolveSystem` and the link loop write. -/
structure MatSame (s s' : State σ K) : Prop where
  mat : s'.mat = s.mat
  rebuild : s'.rebuild = s.rebuild
  solves : s'.solves = s.solves

theorem MatSame.trans {s t u : State σ K} (h : MatSame s t) (h' : MatSame t u) : MatSame s u :=
  ⟨h'.1.trans h.1, h'.2.trans h.2, h'.3.trans h.3⟩

theorem outputPotential_matSame (c : Cfg K) (s : State σ K) : MatSame s (outputPotential c s) := by
  obtain ⟨e, h⟩ := outputPotential_eq c s
  rw [h]
  exact ⟨rfl, rfl, rfl⟩

theorem overridePotential_matSame (c : Cfg K) (s : State σ K) : MatSame s (overridePotential c s) := by
  obtain ⟨p, m, h⟩ := overridePotential_eq c s
  rw [h]
  exact ⟨rfl, rfl, rfl⟩

theorem resetLinks_matSame (M : Methods σ K) (c : Cfg K) (a b : Nat) (s : State σ K) :
    MatSame s (resetLinks M c a b s) := by
  obtain ⟨e, cl, r, h⟩ := resetLinks_eq M c a b s
  rw [h]
  exact ⟨rfl, rfl, rfl⟩

theorem outputPotential_ready (c : Cfg K) (s : State σ K) {pend : Nat → σ → Prop} {N L : Nat} {B : Mat K}
    (h : Ready pend N L B s.env) : Ready pend N L B (outputPotential c s).env := by
  have hv := (outputPotential_fields c s).2.2.2.2.2
  have hp : (outputPotential c s).env.priv = s.env.priv := by
    unfold outputPotential
    split <;> rfl
  unfold Ready at h ⊢
  rw [hv, hp]
  exact h

theorem confirmSolution_ready {pend : Nat → σ → Prop} {M : Methods σ K} (hM : HonestLinks pend M) (c : Cfg K)
    (a b : Nat) (e : Env σ K) {N L : Nat} {B : Mat K} (h : Ready pend N L B e) :
    Ready pend N L B (confirmSolution M c a b e).env := by
  unfold confirmSolution
  refine loop_inv (P := fun _ (p : Poll σ K) => Ready pend N L B p.env) _ h ?_
  rintro k - p hp
  split
  · exact (hM.confirm k a b).ready hp
  · exact hp

theorem resetLinks_ready {pend : Nat → σ → Prop} {M : Methods σ K} (hM : HonestLinks pend M) (c : Cfg K)
    (a b : Nat) (s : State σ K) {N L : Nat} {B : Mat K} (h : Ready pend N L B s.env) :
    Ready pend N L B (resetLinks M c a b s).env := by
  unfold resetLinks
  refine loop_inv (P := fun _ (t : State σ K) => Ready pend N L B t.env) _ h ?_
  rintro k - p hp
  split
  · exact (hM.resetMinor k a b).ready hp
  · exact hp

theorem acceptance_fresh {pend : Nat → σ → Prop} {M : Methods σ K} (hM : HonestLinks pend M) (c : Cfg K)
    (it : Iter σ K) {N L : Nat} {B : Mat K} (h : Ready pend N L B it.s.env) :
    MatSame it.s (acceptance M c it).val ∧ Ready pend N L B (acceptance M c it).val.env := by
  have hp := confirmSolution_ready hM c (countConverged c it) it.s.lastMinor it.s.env h
  unfold acceptance
  split
  · dsimp only
    split
    · simp only [BodyOutcome.val]
      refine ⟨?_, resetLinks_ready hM c _ _ _ (outputPotential_ready c _ hp)⟩
      have h1 := fun b s => resetLinks_matSame M c (countConverged c it) b s
      refine MatSame.trans ?_ (h1 _ _)
      refine MatSame.trans ?_ (outputPotential_matSame c _)
      exact ⟨rfl, rfl, rfl⟩
    · split
      · split
        · exact ⟨⟨rfl, rfl, rfl⟩, hp⟩
        · exact ⟨⟨rfl, rfl, rfl⟩, hp⟩
      · exact ⟨⟨rfl, rfl, rfl⟩, hp⟩
  · exact ⟨⟨rfl, rfl, rfl⟩, h⟩

/-- The state of the matrix before the link loop. -/
def Pre (pend : Nat → σ → Prop) (N L : Nat) (s : State σ K) : Prop :=
  s.rebuild = true ∨ Ready pend N L s.mat s.env

/-- The link loop hears of every change. -/
theorem stepLinks_fresh {pend : Nat → σ → Prop} {M : Methods σ K} (hM : HonestLinks pend M) (c : Cfg K)
    (s : State σ K) (N : Nat) (h : Pre pend N c.numLinks s) :
    (stepLinks M c s).rebuild = true ∨ ∃ isl, FactorOf isl N c.numLinks (stepLinks M c s).env.views s.mat := by
  have key := loop_inv (P := fun k (t : State σ K) => t.mat = s.mat ∧ (t.rebuild = true ∨
      (∃ j, k ≤ j ∧ j < c.numLinks ∧ pend j t.env.priv) ∨ ∃ isl, FactorOf isl N c.numLinks t.env.views s.mat))
    (f := fun link (s : State σ K) =>
      let s :=
        if s.lastMinor = 1 then { s with env := M.step link s.env, calls := s.calls ++ [.step link] }
        else if c.nonLinear link then
          { s with env := M.minorStep link s.lastMinor s.env, calls := s.calls ++ [.minor link s.lastMinor] }
        else s
      let u := M.needAdmittanceUpdate link s.env
      { s with env := u.2, rebuild := if u.1 then true else s.rebuild }) c.numLinks (s := s) ?_ ?_
  · rcases key.2 with h | ⟨j, h1, h2, -⟩ | h
    · exact .inl h
    · omega
    · exact .inr h
  · refine ⟨rfl, ?_⟩
    rcases h with h | ⟨j, h1, h2⟩ | h
    · exact .inl h
    · exact .inr (.inl ⟨j, by omega, h1, h2⟩)
    · exact .inr (.inr h)
  · rintro k hk t ⟨hmat, ht⟩
    -- what the question does, after a first part that only touches link `k`
    have upd : ∀ u : State σ K, u.mat = t.mat → u.rebuild = t.rebuild →
        (∀ j, (AdmSame (t.env.views j) (u.env.views j) ∨ pend j u.env.priv) ∧
          (pend j t.env.priv → pend j u.env.priv)) →
        (∀ j, j ≠ k → AdmSame (t.env.views j) (u.env.views j)) →
        let w := M.needAdmittanceUpdate k u.env
        let v : State σ K := { u with env := w.2, rebuild := if w.1 then true else u.rebuild }
        v.mat = s.mat ∧ (v.rebuild = true ∨ (∃ j, k + 1 ≤ j ∧ j < c.numLinks ∧ pend j v.env.priv) ∨
          ∃ isl, FactorOf isl N c.numLinks v.env.views s.mat) := by
      intro u hum hur hon hown w v
      refine ⟨hum.trans hmat, ?_⟩
      by_cases hk1 : pend k u.env.priv
      · left
        change (if (M.needAdmittanceUpdate k u.env).1 = true then true else u.rebuild) = true
        rw [if_pos (hM.updateHears k u.env hk1)]
      · rcases ht with h | ⟨j, h1, h2, h3⟩ | ⟨isl, h⟩
        · left
          change (if (M.needAdmittanceUpdate k u.env).1 = true then true else u.rebuild) = true
          rw [hur, h]; simp
        · have hj : j ≠ k := by
            rintro rfl
            exact hk1 ((hon j).2 h3)
          exact .inr (.inl ⟨j, by omega, h2, hM.updateKeeps k u.env j hj ((hon j).2 h3)⟩)
        · refine .inr (.inr ⟨isl, h.congr fun j hj => ?_⟩)
          refine AdmSame.trans ?_ (hM.updateSame k u.env j)
          by_cases hjk : j = k
          · subst hjk
            rcases (hon j).1 with h | h
            · exact h
            · exact absurd h hk1
          · exact hown j hjk
    dsimp only
    split
    · exact upd { t with env := M.step k t.env, calls := t.calls ++ [.step k] } rfl rfl
        (fun j => hM.step k t.env j) (fun j hj => hM.stepOwn k t.env j hj)
    · split
      · exact upd { t with env := M.minorStep k t.lastMinor t.env, calls := t.calls ++ [.minor k t.lastMinor] }
          rfl rfl (fun j => hM.minorStep k t.lastMinor t.env j) (fun j hj => hM.minorOwn k t.lastMinor t.env j hj)
      · exact upd t rfl rfl (fun j => ⟨.inl (AdmSame.refl _), id⟩) (fun j _ => AdmSame.refl _)

/-- A direct solution uses factors of the current matrix, and leaves them. -/
theorem buildAndSolve_fresh (c : Cfg K) (s t : State σ K) (hm : c.mode = .normal) (hs : c.sor = none)
    (h : s.rebuild = true ∨ ∃ isl, FactorOf isl c.size c.numLinks s.env.views s.mat)
    (hok : buildAndSolve c s = .ok t) :
    t.rebuild = false ∧ t.env = s.env ∧ (∃ isl, FactorOf isl c.size c.numLinks t.env.views t.mat) ∧
      ∃ p, t.solves = s.solves ++ [(s.env, p)] ∧ GoodSolve c.size c.numLinks (s.env, p) := by
  -- the solution itself
  have hsol : ∀ u t : State σ K, u.env = s.env → u.solves = s.solves → u.rebuild = false →
      (∃ isl, FactorOf isl c.size c.numLinks u.env.views u.mat) →
      solveSystem c (buildSource c.size (Env.links c s.env)) u = .ok t →
      t.rebuild = false ∧ t.env = s.env ∧ (∃ isl, FactorOf isl c.size c.numLinks t.env.views t.mat) ∧
      ∃ p, t.solves = s.solves ++ [(s.env, p)] ∧ GoodSolve c.size c.numLinks (s.env, p) := by
    intro u t h1 h2 h3 ⟨isl, h4⟩ h5
    unfold solveSystem at h5
    rw [hm] at h5
    dsimp only at h5
    split at h5
    · rename_i x hx
      simp only [BuildOutcome.ok.injEq] at h5
      subst h5
      refine ⟨h3, h1, ⟨isl, h4⟩, cleanPot c.size x, by dsimp only; rw [h1, h2], ?_⟩
      exact ⟨isl, u.mat, u.pot, x, h1 ▸ h4, hx, rfl⟩
    · simp at h5
    · simp at h5
  unfold buildAndSolve trySor at hok
  dsimp only at hok
  rw [hs] at hok
  dsimp only at hok
  rw [if_pos (by omega)] at hok
  unfold buildSystem at hok
  split at hok
  · dsimp only at hok
    rw [if_pos ⟨rfl, hm⟩] at hok
    split at hok
    · split at hok
      · rename_i u hu
        have hu' : u.env = s.env ∧ u.solves = s.solves ∧ u.rebuild = false ∧
            ∃ isl, FactorOf isl c.size c.numLinks u.env.views u.mat := by
          unfold factor at hu
          dsimp only at hu
          split at hu
          · rename_i hi
            split at hu
            · rename_i B hB
              simp only [BuildOutcome.ok.injEq] at hu
              subst hu
              exact ⟨rfl, rfl, rfl, true, hB⟩
            · simp at hu
            · simp at hu
          · split at hu
            · rename_i B hB
              simp only [BuildOutcome.ok.injEq] at hu
              subst hu
              exact ⟨rfl, rfl, rfl, false, hB⟩
            · simp at hu
            · simp at hu
        exact hsol u t hu'.1 hu'.2.1 hu'.2.2.1 hu'.2.2.2 hok
      · rename_i hno
        exact absurd hok (hno t)
    · simp at hok
  · rename_i hnb
    dsimp only at hok
    rw [if_neg (by simp)] at hok
    have hr : s.rebuild = false := by
      by_contra hr
      exact hnb (.inl (by simpa using hr))
    rcases h with h | h
    · rw [hr] at h; simp at h
    · exact hsol { s with sorLast := -1 } t rfl rfl hr h hok

/-- One round of the loop. -/
theorem minorBody_fresh {pend : Nat → σ → Prop} {M : Methods σ K} (hM : HonestLinks pend M) (c : Cfg K)
    (hm : c.mode = .normal) (hs : c.sor = none) (it : Iter σ K)
    (h : Pre pend c.size c.numLinks it.s) (hd : it.result = .delay → it.s.rebuild = false)
    (hlim : it.s.lastDecomp < c.decompositionLimit)
    (hg : ∀ x ∈ it.s.solves, GoodSolve c.size c.numLinks x) (it' : Iter σ K)
    (hb : minorBody M c it = .next it' ∨ minorBody M c it = .brk it') :
    it'.s.rebuild = false ∧ Ready pend c.size c.numLinks it'.s.mat it'.s.env ∧
      ∀ x ∈ it'.s.solves, GoodSolve c.size c.numLinks x := by
  have fin : ∀ i1 : Iter σ K, i1.s.rebuild = false → Ready pend c.size c.numLinks i1.s.mat i1.s.env →
      (∀ x ∈ i1.s.solves, GoodSolve c.size c.numLinks x) →
      (acceptance M c i1 = .next it' ∨ acceptance M c i1 = .brk it') →
      it'.s.rebuild = false ∧ Ready pend c.size c.numLinks it'.s.mat it'.s.env ∧
      ∀ x ∈ it'.s.solves, GoodSolve c.size c.numLinks x := by
    intro i1 h1 h2 h3 h4
    obtain ⟨m, r⟩ := acceptance_fresh hM c i1 h2
    have hv : (acceptance M c i1).val = it'.s := by
      rcases h4 with h4 | h4 <;> rw [h4] <;> rfl
    rw [hv] at m r
    exact ⟨m.rebuild.trans h1, m.mat ▸ r, m.solves ▸ h3⟩
  unfold minorBody at hb
  dsimp only at hb
  generalize (if it.s.maxMinor < it.s.lastMinor then it.s.lastMinor else it.s.maxMinor) = mx at hb
  by_cases hdel : it.result ≠ .delay
  · rw [if_pos hdel] at hb
    have hf := stepLinks_fresh hM c { it.s with minorCount := it.s.minorCount + 1, maxMinor := mx } c.size h
    obtain ⟨e, cl, r, hsl⟩ := stepLinks_eq M c { it.s with minorCount := it.s.minorCount + 1, maxMinor := mx }
    rw [hsl] at hb hf
    dsimp only at hf
    generalize hs1 : ({ it.s with
      env := e, rebuild := if c.worstCaseTiming = true then true else r
      minorCount := it.s.minorCount + 1, maxMinor := mx, calls := cl } : State σ K) = s1 at hb
    have hf1 : s1.rebuild = true ∨ ∃ isl, FactorOf isl c.size c.numLinks s1.env.views s1.mat := by
      rw [← hs1]
      rcases hf with hf | hf
      · left; dsimp only; rw [hf]; simp
      · exact .inr hf
    have hsv : s1.solves = it.s.solves := by rw [← hs1]
    cases hB : buildAndSolve c s1 with
    | ok t =>
      rw [hB] at hb
      obtain ⟨h1, h2, h3, p, h4, h5⟩ := buildAndSolve_fresh c s1 t hm hs hf1 hB
      have ms := (overridePotential_matSame c t).trans (outputPotential_matSame c _)
      have hr : Ready pend c.size c.numLinks t.mat (overridePotential c t).env := by
        obtain ⟨p, m, ho⟩ := overridePotential_eq c t
        rw [ho]
        exact .inr h3
      refine fin _ ?_ ?_ ?_ hb
      · exact ms.rebuild.trans h1
      · dsimp only
        rw [ms.mat]
        exact outputPotential_ready c _ hr
      · dsimp only
        rw [ms.solves, h4, hsv]
        intro x hx
        rcases List.mem_append.mp hx with hx | hx
        · exact hg x hx
        · rw [List.mem_singleton.mp hx]; exact h5
    | limit t =>
      have hl := (buildAndSolve_limit c s1 t hB).2
      rw [← hs1] at hl
      dsimp only at hl
      omega
    | numeric t => rw [hB] at hb; simp at hb
    | nan t => rw [hB] at hb; simp at hb
    | ub t => rw [hB] at hb; simp at hb
  · rw [if_neg hdel] at hb
    have hrb := hd (not_not.mp hdel)
    refine fin _ ?_ ?_ ?_ hb
    · exact hrb
    · rcases h with h | h
      · rw [hrb] at h; simp at h
      · exact h
    · exact hg

theorem minorLoop_fresh {pend : Nat → σ → Prop} {M : Methods σ K} (hM : HonestLinks pend M) (c : Cfg K)
    (hm : c.mode = .normal) (hs : c.sor = none) (fuel : Nat) :
    ∀ it it' : Iter σ K, Pre pend c.size c.numLinks it.s → (it.result = .delay → it.s.rebuild = false) →
      (fuel = 0 → it.s.rebuild = false) → it.s.lastDecomp + fuel ≤ c.decompositionLimit →
      (∀ x ∈ it.s.solves, GoodSolve c.size c.numLinks x) →
      minorLoop M c fuel it = .ok it' →
      it'.s.rebuild = false ∧ Ready pend c.size c.numLinks it'.s.mat it'.s.env ∧
        ∀ x ∈ it'.s.solves, GoodSolve c.size c.numLinks x := by
  induction fuel with
  | zero =>
    intro it it' h1 _ h2 _ h3 h
    simp only [minorLoop, Outcome.ok.injEq] at h
    subst h
    refine ⟨h2 rfl, ?_, h3⟩
    rcases h1 with h1 | h1
    · rw [h2 rfl] at h1; simp at h1
    · exact h1
  | succ fuel ih =>
    intro it it' h1 hd _ hlim h3 h
    have hbc := minorBody_counts M c it
    have hb := minorBody_fresh hM c hm hs it h1 hd (by omega) h3
    unfold minorLoop at h
    split at h
    · rename_i it1 h1
      obtain ⟨g1, g2, g3⟩ := hb it1 (.inl h1)
      rw [h1] at hbc
      obtain ⟨d, d1, d2, -⟩ := hbc.decomp
      simp only [BodyOutcome.val] at d2
      refine ih _ _ ?_ ?_ ?_ ?_ ?_ h
      · exact .inr g2
      · exact fun _ => g1
      · exact fun _ => g1
      · dsimp only; omega
      · exact g3
    · rename_i it1 h1
      simp only [Outcome.ok.injEq] at h
      subst h
      exact hb it1 (.inr h1)
    · simp at h
    · simp at h
    · simp at h

end Gunns
