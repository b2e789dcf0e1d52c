import Verif.Elect.ConverterNet
import Verif.Elect.ConverterLemmas
import Verif.Solver.Invariant

/-!
# Lemmas about a converter in a network
-/

set_option linter.unusedSectionVars false

namespace Gunns.Conv

open Gunns

variable {σ K : Type _} [Field K] [LinearOrder K]

/-- Same place in the network. -/
def SamePlace (p q : Pair K) : Prop :=
  q.linked = p.linked ∧ q.inp.ground = p.inp.ground ∧ q.out.ground = p.out.ground

/-- Same validity flags. -/
def SameFlags (p q : Pair K) : Prop := q.inp.voltageValid = p.inp.voltageValid ∧ q.out.powerValid = p.out.powerValid

theorem computePower_flags (o : Out K) :
    o.computePower.2.ground = o.ground ∧ o.computePower.2.powerValid = o.powerValid := by
  unfold Out.computePower Out.computeFlux
  split <;> exact ⟨rfl, rfl⟩

theorem ownPower_flags (o : Out K) : o.ownPower.ground = o.ground ∧ o.ownPower.powerValid = o.powerValid := by
  unfold Out.ownPower
  exact computePower_flags o

theorem outContribute_flags (sq : K → K) (o : Out K) :
    (o.contribute sq).ground = o.ground ∧ (o.contribute sq).powerValid = o.powerValid := by
  unfold Out.contribute Out.estimateLoad Out.computeFlux
  exact ⟨rfl, rfl⟩

theorem seen_same (a b : Nat) (e : Env σ K) (p : Pair K) : SamePlace p (seen a b e p) ∧ SameFlags p (seen a b e p) :=
  ⟨⟨rfl, rfl, rfl⟩, rfl, rfl⟩

theorem inMinor_same (p : Pair K) : SamePlace p p.inMinor ∧ SameFlags p p.inMinor := by
  unfold Pair.inMinor
  split
  · exact ⟨⟨rfl, rfl, rfl⟩, rfl, rfl⟩
  · dsimp only
    split
    · split
      · obtain ⟨h1, h2⟩ := computePower_flags p.out
        exact ⟨⟨rfl, rfl, h1⟩, rfl, h2⟩
      · exact ⟨⟨rfl, rfl, rfl⟩, rfl, rfl⟩
    · exact ⟨⟨rfl, rfl, rfl⟩, rfl, rfl⟩

theorem SamePlace.trans {p q r : Pair K} (h1 : SamePlace p q) (h2 : SamePlace q r) : SamePlace p r :=
  ⟨h2.1.trans h1.1, h2.2.1.trans h1.2.1, h2.2.2.trans h1.2.2⟩

theorem SameFlags.trans {p q r : Pair K} (h1 : SameFlags p q) (h2 : SameFlags q r) : SameFlags p r :=
  ⟨h2.1.trans h1.1, h2.2.trans h1.2⟩

theorem inStep_same (p : Pair K) : SamePlace p p.inStep ∧ SameFlags p p.inStep := by
  unfold Pair.inStep
  dsimp only
  refine ⟨SamePlace.trans ?_ (inMinor_same _).1, SameFlags.trans ?_ (inMinor_same _).2⟩
  · refine ⟨rfl, ?_, rfl⟩
    dsimp only
    split <;> rfl
  · refine ⟨?_, rfl⟩
    dsimp only
    split <;> rfl

theorem outMinor_same (sq : K → K) (p : Pair K) (m : Nat) :
    SamePlace p (p.outMinor sq m) ∧ SameFlags p (p.outMinor sq m) := by
  obtain ⟨o1, o2⟩ := ownPower_flags p.out
  unfold Pair.outMinor
  split
  · exact ⟨⟨rfl, rfl, rfl⟩, rfl, rfl⟩
  · dsimp only
    refine ⟨⟨?_, ?_, ?_⟩, ?_, ?_⟩
    · split
      · split <;> rfl
      · rfl
    · split
      · split <;> rfl
      · rfl
    · rw [(outContribute_flags sq _).1]
      split_ifs <;> exact o1
    · split
      · split <;> rfl
      · rfl
    · rw [(outContribute_flags sq _).2]
      split_ifs <;> exact o2

theorem outStep_same (sq : K → K) (p : Pair K) : SamePlace p (p.outStep sq) ∧ SameFlags p (p.outStep sq) := by
  unfold Pair.outStep
  dsimp only
  refine ⟨SamePlace.trans ?_ (outMinor_same sq _ 1).1, SameFlags.trans ?_ (outMinor_same sq _ 1).2⟩
  · split
    · refine ⟨rfl, ?_, rfl⟩
      dsimp only
      split <;> rfl
    · exact ⟨rfl, rfl, rfl⟩
  · split
    · refine ⟨?_, rfl⟩
      dsimp only
      split <;> rfl
    · exact ⟨rfl, rfl⟩

theorem checkTrips_ground (i : In K) (v : K) (n : Nat) : (i.checkTrips v n).2.ground = i.ground := by
  unfold In.checkTrips
  split <;> rfl

theorem inJudge_ground (i : In K) (n : Nat) : (i.judge n).2.ground = i.ground := by
  unfold In.judge
  dsimp only
  split
  · split <;> exact checkTrips_ground i _ n
  · exact checkTrips_ground i _ n

theorem inConfirm_same (p : Pair K) (n : Nat) :
    SamePlace p (p.inConfirm n).2 ∧ (p.inConfirm n).2.out = p.out ∧
    (p.inp.ground = true → (p.inConfirm n).2.inp.voltageValid = false) := by
  unfold Pair.inConfirm
  split
  · exact ⟨⟨rfl, rfl, rfl⟩, rfl, fun _ => rfl⟩
  · rename_i hg
    split
    · exact ⟨⟨rfl, rfl, rfl⟩, rfl, fun h => absurd h hg⟩
    · refine ⟨⟨rfl, ?_, rfl⟩, rfl, fun h => absurd h hg⟩
      dsimp only
      split <;> exact inJudge_ground p.inp n

theorem updateBias_ground (o : Out K) (r : SolRes) (n : Nat) (b : Bool) :
    (o.updateBias r n b).2.ground = o.ground := by
  unfold Out.updateBias
  dsimp only
  split_ifs <;> rfl

theorem checkTripsOut_ground (o : Out K) (r : SolRes) (v i : K) (n : Nat) :
    (o.checkTrips r v i n).2.ground = o.ground := by
  unfold Out.checkTrips
  dsimp only
  split_ifs <;> rfl

theorem updateLimit_ground (sq : K → K) (o : Out K) (r : SolRes) (v i : K) :
    (o.updateLimit sq r v i).2.2.ground = o.ground := by
  unfold Out.updateLimit
  split_ifs
  · unfold Out.currentLimit Out.rejectWith
    dsimp only
    split_ifs <;> rfl
  · unfold Out.voltageLimit Out.rejectWith
    dsimp only
    split <;> split_ifs <;> rfl
  · rfl

theorem outJudge_ground (sq : K → K) (o : Out K) (n : Nat) : (o.judge sq n).2.ground = o.ground := by
  unfold Out.judge
  dsimp only
  split
  · rw [updateBias_ground, updateLimit_ground, checkTripsOut_ground, (ownPower_flags _).1, updateBias_ground]
  · exact updateBias_ground _ _ _ _

theorem outConfirm_same (sq : K → K) (p : Pair K) (n : Nat) :
    SamePlace p (p.outConfirm sq n).2 ∧ (p.outConfirm sq n).2.inp = p.inp ∧
    (p.out.ground = true → (p.outConfirm sq n).2.out.powerValid = false) := by
  unfold Pair.outConfirm
  split
  · exact ⟨⟨rfl, rfl, rfl⟩, rfl, fun _ => rfl⟩
  · rename_i hg
    refine ⟨⟨rfl, rfl, ?_⟩, rfl, fun h => absurd h hg⟩
    dsimp only
    split <;> exact outJudge_ground sq p.out n

theorem inConfirm_invalid (p : Pair K) (n : Nat) (hn : 0 < n) (hl : p.linked = true) (hg : p.inp.ground = false)
    (hv : p.out.powerValid = false) : (p.inConfirm n).1 = .reject := by
  unfold Pair.inConfirm
  rw [hg, if_neg Bool.false_ne_true, if_neg (by omega : ¬ n = 0)]
  dsimp only
  rw [if_pos hl]
  dsimp only
  rw [hv]
  rfl

theorem outConfirm_invalid (sq : K → K) (p : Pair K) (n : Nat) (hl : p.linked = true) (hg : p.out.ground = false)
    (hv : p.inp.voltageValid = false) : (p.outConfirm sq n).1 = .reject := by
  unfold Pair.outConfirm
  rw [hg, if_neg Bool.false_ne_true]
  dsimp only
  rw [if_pos hl]
  dsimp only
  rw [hv]
  rfl

theorem inReset_same (p : Pair K) (n : Nat) : SamePlace p (p.inReset n) ∧ SameFlags p (p.inReset n) := by
  unfold Pair.inReset
  split <;> exact ⟨⟨rfl, rfl, rfl⟩, rfl, rfl⟩

theorem flows_flags (o : Out K) : o.flows.ground = o.ground ∧ o.flows.powerValid = o.powerValid := by
  unfold Out.flows Out.computeFlux
  split <;> exact ⟨rfl, rfl⟩

theorem inFlows_flags (i : In K) : i.flows.ground = i.ground ∧ i.flows.voltageValid = i.voltageValid := by
  unfold In.flows
  split <;> exact ⟨rfl, rfl⟩

/-! ## Through the functions the solver calls -/

section

variable {M : Methods σ K} {sq : K → K} {a b : Nat} {get : σ → Pair K}

/-- Where the links are does not change. -/
theorem keeps_place (hN : ConvNet M sq a b get) (p0 : Pair K) : Keeps M (fun x => SamePlace p0 (get x)) where
  inputs l e h := by rw [hN.inputs]; exact h
  flows e h := by rw [hN.flows]; exact h
  step l e h := by
    by_cases ha : l = a
    · subst ha; rw [hN.stepIn]; exact h.trans ((seen_same _ _ _ _).1.trans (inStep_same _).1)
    · by_cases hb : l = b
      · subst hb; rw [hN.stepOut]; exact h.trans ((seen_same _ _ _ _).1.trans (outStep_same _ _).1)
      · rw [hN.stepOther l e ha hb]; exact h
  minor l m e h := by
    by_cases ha : l = a
    · subst ha; rw [hN.minorIn]; exact h.trans ((seen_same _ _ _ _).1.trans (inMinor_same _).1)
    · by_cases hb : l = b
      · subst hb; rw [hN.minorOut]; exact h.trans ((seen_same _ _ _ _).1.trans (outMinor_same _ _ _).1)
      · rw [hN.minorOther l m e ha hb]; exact h
  update l e h := by rw [hN.update]; exact h
  confirm l n m e h := by
    by_cases ha : l = a
    · subst ha; rw [(hN.confirmIn n m e).2]; exact h.trans ((seen_same _ _ _ _).1.trans (inConfirm_same _ _).1)
    · by_cases hb : l = b
      · subst hb; rw [(hN.confirmOut n m e).2]; exact h.trans ((seen_same _ _ _ _).1.trans (outConfirm_same _ _ _).1)
      · rw [hN.confirmOther l n m e ha hb]; exact h
  reset l n m e h := by
    by_cases ha : l = a
    · subst ha; rw [hN.resetIn]; exact h.trans ((seen_same _ _ _ _).1.trans (inReset_same _ _).1)
    · by_cases hb : l = b
      · subst hb
        rw [hN.resetOut]
        exact h.trans ⟨rfl, rfl, rfl⟩
      · rw [hN.resetOther l n m e ha hb]; exact h
  transport e h := by
    obtain ⟨h1, h2, h3⟩ := hN.transport e
    refine h.trans ⟨h1, ?_, ?_⟩
    · rw [h2]; exact (inFlows_flags _).1
    · rw [h3]; exact (flows_flags _).1
  outputs l e h := by rw [hN.outputs]; exact h

/-- The flags change in polls and resets only. -/
theorem flags_step (hN : ConvNet M sq a b get) (l : Nat) (e : Env σ K) :
    SameFlags (get e.priv) (get (M.step l e).priv) := by
  by_cases ha : l = a
  · subst ha; rw [hN.stepIn]; exact (seen_same _ _ _ _).2.trans (inStep_same _).2
  · by_cases hb : l = b
    · subst hb; rw [hN.stepOut]; exact (seen_same _ _ _ _).2.trans (outStep_same _ _).2
    · rw [hN.stepOther l e ha hb]; exact ⟨rfl, rfl⟩

theorem flags_minor (hN : ConvNet M sq a b get) (l m : Nat) (e : Env σ K) :
    SameFlags (get e.priv) (get (M.minorStep l m e).priv) := by
  by_cases ha : l = a
  · subst ha; rw [hN.minorIn]; exact (seen_same _ _ _ _).2.trans (inMinor_same _).2
  · by_cases hb : l = b
    · subst hb; rw [hN.minorOut]; exact (seen_same _ _ _ _).2.trans (outMinor_same _ _ _).2
    · rw [hN.minorOther l m e ha hb]; exact ⟨rfl, rfl⟩

theorem flags_transport (hN : ConvNet M sq a b get) (e : Env σ K) :
    SameFlags (get e.priv) (get (M.transport e).priv) := by
  obtain ⟨-, h2, h3⟩ := hN.transport e
  refine ⟨?_, ?_⟩
  · rw [h2]; exact (inFlows_flags _).2
  · rw [h3]; exact (flows_flags _).2

/-- The flag of the input changes in its own poll only. -/
theorem voltageValid_confirm (hN : ConvNet M sq a b get) (l n m : Nat) (e : Env σ K) (h : l ≠ a) :
    (get (M.confirm l n m e).2.priv).inp.voltageValid = (get e.priv).inp.voltageValid := by
  by_cases hb : l = b
  · subst hb; rw [(hN.confirmOut n m e).2, (outConfirm_same _ _ _).2.1]; rfl
  · rw [hN.confirmOther l n m e h hb]

theorem voltageValid_reset (hN : ConvNet M sq a b get) (l n m : Nat) (e : Env σ K) :
    (get (M.resetMinor l n m e).2.priv).inp.voltageValid = (get e.priv).inp.voltageValid := by
  by_cases ha : l = a
  · subst ha; rw [hN.resetIn]; exact (inReset_same _ _).2.1
  · by_cases hb : l = b
    · subst hb; rw [hN.resetOut]; rfl
    · rw [hN.resetOther l n m e ha hb]

/-- The flag of the output changes in its own poll and reset only. -/
theorem powerValid_confirm (hN : ConvNet M sq a b get) (l n m : Nat) (e : Env σ K) (h : l ≠ b) :
    (get (M.confirm l n m e).2.priv).out.powerValid = (get e.priv).out.powerValid := by
  by_cases ha : l = a
  · subst ha; rw [(hN.confirmIn n m e).2, (inConfirm_same _ _).2.1]; rfl
  · rw [hN.confirmOther l n m e ha h]

theorem powerValid_reset (hN : ConvNet M sq a b get) (l n m : Nat) (e : Env σ K) (h : l ≠ b) :
    (get (M.resetMinor l n m e).2.priv).out.powerValid = (get e.priv).out.powerValid := by
  by_cases ha : l = a
  · subst ha; rw [hN.resetIn]; exact (inReset_same _ _).2.2
  · rw [hN.resetOther l n m e ha h]

/-- A pair in a fixed place whose input is invalid for good. -/
theorem keeps_deadIn (hN : ConvNet M sq a b get) :
    Keeps M (fun x => SpareIn (get x) ∧ (get x).inp.voltageValid = false) := by
  have hp := fun p0 => keeps_place hN p0
  have hS : ∀ {x y : σ}, SamePlace (get x) (get y) → SpareIn (get x) → SpareIn (get y) :=
    fun h hs => ⟨h.1.trans hs.1, h.2.1.trans hs.2.1, h.2.2.trans hs.2.2⟩
  have hr : ∀ p : Pair K, SamePlace p p := fun p => ⟨rfl, rfl, rfl⟩
  refine ⟨fun l e h => by rw [hN.inputs]; exact h, fun e h => by rw [hN.flows]; exact h,
    fun l e h => ⟨hS ((hp _).step l e (hr _)) h.1, (flags_step hN l e).1.trans h.2⟩,
    fun l m e h => ⟨hS ((hp _).minor l m e (hr _)) h.1, (flags_minor hN l m e).1.trans h.2⟩,
    fun l e h => by rw [hN.update]; exact h,
    fun l n m e h => ⟨hS ((hp _).confirm l n m e (hr _)) h.1, ?_⟩,
    fun l n m e h => ⟨hS ((hp _).reset l n m e (hr _)) h.1, (voltageValid_reset hN l n m e).trans h.2⟩,
    fun e h => ⟨hS ((hp _).transport e (hr _)) h.1, (flags_transport hN e).1.trans h.2⟩,
    fun l e h => by rw [hN.outputs]; exact h⟩
  by_cases ha : l = a
  · subst ha
    rw [(hN.confirmIn n m e).2]
    exact (inConfirm_same _ _).2.2 h.1.2.1
  · exact (voltageValid_confirm hN l n m e ha).trans h.2

theorem keeps_deadOut (hN : ConvNet M sq a b get) :
    Keeps M (fun x => SpareOut (get x) ∧ (get x).out.powerValid = false) := by
  have hp := fun p0 => keeps_place hN p0
  have hS : ∀ {x y : σ}, SamePlace (get x) (get y) → SpareOut (get x) → SpareOut (get y) :=
    fun h hs => ⟨h.1.trans hs.1, h.2.2.trans hs.2.1, h.2.1.trans hs.2.2⟩
  have hr : ∀ p : Pair K, SamePlace p p := fun p => ⟨rfl, rfl, rfl⟩
  refine ⟨fun l e h => by rw [hN.inputs]; exact h, fun e h => by rw [hN.flows]; exact h,
    fun l e h => ⟨hS ((hp _).step l e (hr _)) h.1, (flags_step hN l e).2.trans h.2⟩,
    fun l m e h => ⟨hS ((hp _).minor l m e (hr _)) h.1, (flags_minor hN l m e).2.trans h.2⟩,
    fun l e h => by rw [hN.update]; exact h,
    fun l n m e h => ⟨hS ((hp _).confirm l n m e (hr _)) h.1, ?_⟩,
    fun l n m e h => ⟨hS ((hp _).reset l n m e (hr _)) h.1, ?_⟩,
    fun e h => ⟨hS ((hp _).transport e (hr _)) h.1, (flags_transport hN e).2.trans h.2⟩,
    fun l e h => by rw [hN.outputs]; exact h⟩
  · by_cases hb : l = b
    · subst hb
      rw [(hN.confirmOut n m e).2]
      exact (outConfirm_same _ _ _).2.2 h.1.2.1
    · exact (powerValid_confirm hN l n m e hb).trans h.2
  · by_cases hb : l = b
    · subst hb
      rw [hN.resetOut]
      rfl
    · exact (powerValid_reset hN l n m e hb).trans h.2

end

/-! ## Steps that cannot converge -/

section

variable {M : Methods σ K} {c : Cfg K}

/-- If the links keep `P`, and in `P` every converged solution is rejected, no step converges. -/
theorem dead_step (P : σ → Prop) (hk : Keeps M P) (hl : c.linear = false) (hm : c.mode = .normal)
    (hp : c.paused = false)
    (hrej : ∀ n m e, 0 < n → P e.priv → (confirmSolution M c n m e).result = .reject) (s s' : State σ K)
    (hs : P s.env.priv) (h : step M c s = .ok s') :
    P s'.env.priv ∧ s'.failCount = s.failCount + 1 ∧ ∀ r ∈ s'.hist, 0 < r.convergedStep → r.result = .reject := by
  let I : Iter σ K → Prop := fun it => it.networkConverged = false ∧ P it.s.env.priv ∧ it.s.failCount = s.failCount ∧
    ∀ r ∈ it.s.hist, 0 < r.convergedStep → r.result = .reject
  obtain ⟨s1, s2, s3⟩ := stepStart_priv (c := c) P hk.inputs hk.flows s hs
  have hbody : ∀ it it', I it → (minorBody M c it = .next it' ∨ minorBody M c it = .brk it') → I it' := by
    rintro it it' ⟨i1, i2, i3, i4⟩ hb
    rcases minorBody_priv (c := c) P hk.step hk.minor hk.update it i2 with
      ⟨t, ht⟩ | ⟨t, ht⟩ | ⟨t, ht⟩ | ⟨t, ht, t1, t2, t3⟩ | ⟨t, ht, t1, t2, t3⟩
    · rw [ht] at hb; rcases hb with hb | hb <;> cases hb
    · rw [ht] at hb; rcases hb with hb | hb <;> cases hb
    · rw [ht] at hb; rcases hb with hb | hb <;> cases hb
    · rw [ht] at hb
      rcases hb with hb | hb
      · cases hb
      · cases hb
        exact ⟨rfl, t1, t3.trans i3, by dsimp only; rw [t2]; exact i4⟩
    · rw [ht] at hb
      have hrec : ∀ r ∈ t.hist ++ [pollRec M c { it with s := t }], 0 < r.convergedStep → r.result = .reject := by
        intro r hr hc
        rcases List.mem_append.mp hr with hr | hr
        · rw [t2] at hr; exact i4 r hr hc
        · rw [List.mem_singleton.mp hr] at hc ⊢
          exact hrej _ _ _ hc t1
      have hq : P (confirmSolution M c (countConverged c { it with s := t }) t.lastMinor t.env).env.priv :=
        confirmSolution_priv P hk.confirm _ _ _ t1
      rcases acceptance_priv (M := M) { it with s := t } hl hm with
        ⟨-, u, v, hu, v1, v2, v3, v4⟩ | ⟨hnr, u, u1, u2, u3, hu⟩
      · rw [hu] at hb
        rcases hb with hb | hb
        · cases hb
          refine ⟨i1, ?_, v4.trans (t3.trans i3), by dsimp only; rw [v3]; exact hrec⟩
          dsimp only
          rw [v2]
          exact resetLinks_priv P hk.reset _ _ _ (by rw [v1]; exact hq)
        · cases hb
      · rcases hu with ⟨hc, hn, -⟩ | ⟨-, hu⟩
        · exact absurd (hrej _ _ _ hn t1) hnr
        · rw [hu] at hb
          rcases hb with hb | hb
          · cases hb
            refine ⟨i1, ?_, u3.trans (t3.trans i3), by dsimp only; rw [u2]; exact hrec⟩
            dsimp only
            rw [u1]
            exact hq
          · cases hb
  obtain ⟨it, ⟨j1, j2, j3, j4⟩, rfl⟩ := step_inv I I hl hm hp s s' h
    ⟨rfl, s1, s3, by dsimp only; rw [s2]; simp⟩ (fun it k hi => hi) (fun it hi => hi)
    (fun it it' hi hb => hbody it it' hi (Or.inl hb)) (fun it it' hi hb => hbody it it' hi (Or.inr hb))
  obtain ⟨f1, f2, f3⟩ := finishStep_failed (M := M) (c := c) it j1
  exact ⟨by rw [f1]; exact j2, by rw [f2, j3], by rw [f3]; exact j4⟩

/-! ## A rejection after a rejection -/

/-- In consecutive records, a converged solution after a rejected one is rejected. -/
def Sticky (hist : List (MinorRec K)) : Prop :=
  ∀ pre r1 r2 post, hist = pre ++ r1 :: r2 :: post → r1.result = .reject → 0 < r2.convergedStep → r2.result = .reject

theorem Sticky.snoc {h : List (MinorRec K)} {r : MinorRec K} (hc : Sticky h)
    (hl : ∀ pre x, h = pre ++ [x] → x.result = .reject → 0 < r.convergedStep → r.result = .reject) :
    Sticky (h ++ [r]) := by
  intro pre x y post he
  rcases List.eq_nil_or_concat post with rfl | ⟨post', z, rfl⟩
  · have h2 : h ++ [r] = (pre ++ [x]) ++ [y] := by simpa using he
    obtain ⟨h3, h4⟩ := List.append_inj' h2 rfl
    simp only [List.cons.injEq, and_true] at h4
    subst h4
    exact hl pre x h3
  · have h2 : h ++ [r] = (pre ++ x :: y :: post') ++ [z] := by simpa using he
    obtain ⟨h3, -⟩ := List.append_inj' h2 rfl
    exact hc pre x y post' h3

/-- The loop between two minor steps; `first` says what is known before the first. -/
structure StickyInv (get : σ → Pair K) (f : Nat) (it : Iter σ K) : Prop where
  place : (get it.s.env.priv).linked = true ∧ (get it.s.env.priv).inp.ground = false
  sticky : Sticky it.s.hist
  last : ∀ pre x, it.s.hist = pre ++ [x] → x.result = .reject → (get it.s.env.priv).out.powerValid = false
  fails : it.s.failCount = f
  done : it.networkConverged = true → ∃ pre x, it.s.hist = pre ++ [x] ∧ x.result = .confirm ∧ 0 < x.convergedStep

variable {sq : K → K} {a b : Nat} {get : σ → Pair K}

theorem sticky_body (hN : ConvNet M sq a b get) (hh : Hosted c a b) (hab : a < b) (hw : c.worstCaseTiming = false)
    (f : Nat) (it it' : Iter σ K) (hi : StickyInv get f it) (hnc : it.networkConverged = false)
    (hb : minorBody M c it = .next it' ∨ minorBody M c it = .brk it') :
    StickyInv get f it' ∧ (minorBody M c it = .next it' → it'.networkConverged = false) := by
  obtain ⟨na, nb, la, lb, hne, hl, hm, -⟩ := hh
  have hk := keeps_place hN (get it.s.env.priv)
  -- place and flag up to the poll
  let P : σ → Prop := fun x => SamePlace (get it.s.env.priv) (get x) ∧
    (get x).out.powerValid = (get it.s.env.priv).out.powerValid
  have hP0 : P it.s.env.priv := ⟨⟨rfl, rfl, rfl⟩, rfl⟩
  have hplace : ∀ {x : σ}, SamePlace (get it.s.env.priv) (get x) → (get x).linked = true ∧ (get x).inp.ground = false :=
    fun h => ⟨h.1.trans hi.place.1, h.2.1.trans hi.place.2⟩
  rcases minorBody_priv (M := M) (c := c) P (fun l e h => ⟨hk.step l e h.1, (flags_step hN l e).2.trans h.2⟩)
      (fun l m e h => ⟨hk.minor l m e h.1, (flags_minor hN l m e).2.trans h.2⟩)
      (fun l e h => ⟨hk.update l e h.1, by rw [hN.update]; exact h.2⟩) it hP0 with
    ⟨t, ht⟩ | ⟨t, ht⟩ | ⟨t, ht⟩ | ⟨t, ht, t1, t2, t3⟩ | ⟨t, ht, t1, t2, t3⟩
  · rw [ht] at hb; rcases hb with hb | hb <;> cases hb
  · rw [ht] at hb; rcases hb with hb | hb <;> cases hb
  · rw [ht] at hb; rcases hb with hb | hb <;> cases hb
  · rw [ht] at hb
    rcases hb with hb | hb
    · cases hb
    · cases hb
      refine ⟨⟨hplace t1.1, by dsimp only; rw [t2]; exact hi.sticky, ?_, t3.trans hi.fails, fun h => by cases h⟩,
        fun h => absurd (ht.symm.trans h) (by simp)⟩
      intro pre x hx hr
      dsimp only at hx ⊢
      rw [t2] at hx
      rw [t1.2]
      exact hi.last pre x hx hr
  · obtain ⟨n, hn⟩ : ∃ n, n = countConverged c { it with s := t } := ⟨_, rfl⟩
    obtain ⟨q, hq⟩ : ∃ q, q = confirmSolution M c n t.lastMinor t.env := ⟨_, rfl⟩
    have hqr : (pollRec M c { it with s := t }).result = q.result := by rw [hq, hn]; rfl
    have hqn : (pollRec M c { it with s := t }).convergedStep = n := by rw [hn]; rfl
    have hqp : SamePlace (get it.s.env.priv) (get q.env.priv) := by
      rw [hq]
      exact confirmSolution_priv (fun x => SamePlace (get it.s.env.priv) (get x)) hk.confirm _ _ _ t1.1
    have hst : Sticky (t.hist ++ [pollRec M c { it with s := t }]) := by
      rw [t2]
      refine hi.sticky.snoc fun pre x hx hr hc => ?_
      rw [hqn] at hc
      have hinv := hi.last pre x hx hr
      rw [hqr, hq]
      obtain ⟨e', ⟨p1, p2⟩, he'⟩ := poll_at (M := M) (c := c) P a na la n t.lastMinor
        (fun l e hla h => ⟨hk.confirm l _ _ e h.1,
          (powerValid_confirm hN l _ _ e (by omega)).trans h.2⟩) t.env t1
      have hans : (M.confirm a n t.lastMinor e').1 = .reject := by
        rw [(hN.confirmIn _ _ _).1]
        exact inConfirm_invalid _ n hc (hplace p1).1 (hplace p1).2 (p2.trans hinv)
      rw [hans] at he'
      exact (confirmSolution_spec M c n t.lastMinor t.env).2.2.1.mpr ⟨a, he'⟩
    have hsnoc : ∀ {u : State σ K}, u.hist = t.hist ++ [pollRec M c { it with s := t }] → ∀ pre x,
        u.hist = pre ++ [x] → x = pollRec M c { it with s := t } := by
      intro u hu pre x hx
      rw [hu] at hx
      obtain ⟨-, h4⟩ := List.append_inj' hx rfl
      simp only [List.cons.injEq, and_true] at h4
      exact h4.symm
    have hacc := acceptance_priv (M := M) { it with s := t } hl hm
    rw [← hn] at hacc
    dsimp only at hacc
    rw [← hq] at hacc
    rcases hacc with ⟨-, u, v, hu, v1, v2, v3, v4⟩ | ⟨hnr, u, u1, u2, u3, hu⟩
    · rw [ht, hu] at hb ⊢
      rcases hb with hb | hb
      · cases hb
        refine ⟨⟨?_, by dsimp only; rw [v3]; exact hst, fun pre x hx hr => ?_, v4.trans (t3.trans hi.fails),
          fun h => by rw [hnc] at h; cases h⟩, fun _ => hnc⟩
        · dsimp only
          rw [v2]
          exact hplace (resetLinks_priv (fun x => SamePlace (get it.s.env.priv) (get x)) hk.reset _ _ _
            (by rw [v1]; exact hqp))
        · dsimp only
          rw [v2]
          exact reset_sets (fun x => (get x).out.powerValid = false) b nb lb _ _
            (fun e => by rw [hN.resetOut]; rfl) (fun l e hlb h => (powerValid_reset hN l _ _ e hlb).trans h) _
      · cases hb
    · have hlast : ∀ pre x, u.hist = pre ++ [x] → x.result = .reject → (get u.env.priv).out.powerValid = false := by
        intro pre x hx hr
        rw [hsnoc u2 pre x hx, hqr] at hr
        exact absurd hr hnr
      have hpl : (get u.env.priv).linked = true ∧ (get u.env.priv).inp.ground = false := by
        rw [u1]; exact hplace hqp
      rcases hu with ⟨hc, hn0, hu⟩ | ⟨-, hu⟩
      · rcases hu with hu | ⟨hw', -⟩
        · rw [ht, hu] at hb ⊢
          rcases hb with hb | hb
          · cases hb
          · cases hb
            exact ⟨⟨hpl, by dsimp only; rw [u2]; exact hst, hlast, u3.trans (t3.trans hi.fails),
              fun _ => ⟨_, _, u2, hqr.trans hc, by rw [hqn]; exact hn0⟩⟩, fun h => by cases h⟩
        · rw [hw] at hw'; cases hw'
      · rw [ht, hu] at hb ⊢
        rcases hb with hb | hb
        · cases hb
          exact ⟨⟨hpl, by dsimp only; rw [u2]; exact hst, hlast, u3.trans (t3.trans hi.fails),
            fun h => by rw [hnc] at h; cases h⟩, fun _ => hnc⟩
        · cases hb

/-- What is known after a step. -/
theorem sticky_step (hN : ConvNet M sq a b get) (hh : Hosted c a b) (hab : a < b) (hw : c.worstCaseTiming = false)
    (s s' : State σ K) (hlk : (get s.env.priv).linked = true) (hg : (get s.env.priv).inp.ground = false)
    (h : step M c s = .ok s') :
    Sticky s'.hist ∧
    (s'.failCount = s.failCount + 1 ∨
      (s'.failCount = s.failCount ∧ ∃ pre x, s'.hist = pre ++ [x] ∧ x.result = .confirm ∧ 0 < x.convergedStep)) := by
  have hk := keeps_place hN (get s.env.priv)
  obtain ⟨s1, s2, s3⟩ := stepStart_priv (M := M) (c := c) (fun x => SamePlace (get s.env.priv) (get x)) hk.inputs
    hk.flows s ⟨rfl, rfl, rfl⟩
  let I : Iter σ K → Prop := fun it => StickyInv get s.failCount it ∧ it.networkConverged = false
  obtain ⟨it, hJ, rfl⟩ := step_inv I (StickyInv get s.failCount) hh.2.2.2.2.2.1 hh.2.2.2.2.2.2.1 hh.2.2.2.2.2.2.2 s s' h
    ⟨⟨⟨s1.1.trans hlk, s1.2.1.trans hg⟩, by dsimp only; rw [s2]; intro pre x y post he; simp at he,
      fun pre x hx => by dsimp only at hx; rw [s2] at hx; simp at hx, s3, fun h => by cases h⟩, rfl⟩
    (fun it k hi => ⟨⟨hi.1.place, hi.1.sticky, hi.1.last, hi.1.fails, hi.1.done⟩, hi.2⟩)
    (fun it hi => hi.1)
    (fun it it' hi hb =>
      have := sticky_body hN hh hab hw _ it it' hi.1 hi.2 (Or.inl hb)
      ⟨this.1, this.2 hb⟩)
    (fun it it' hi hb => (sticky_body hN hh hab hw _ it it' hi.1 hi.2 (Or.inr hb)).1)
  cases hc : it.networkConverged with
  | false =>
    obtain ⟨f1, f2, f3⟩ := finishStep_failed (M := M) (c := c) it hc
    rw [f2, f3, hJ.fails]
    exact ⟨hJ.sticky, Or.inl rfl⟩
  | true =>
    obtain ⟨f1, f2, f3⟩ := finishStep_done (M := M) (c := c) it hc (fun _ => True) (fun _ _ => trivial)
      (fun _ _ _ => trivial) trivial
    rw [f2, f3, hJ.fails]
    exact ⟨hJ.sticky, Or.inr ⟨rfl, hJ.done hc⟩⟩

/-- Steps in which every solution is within the tolerance of the saved one, from a state with an invalid output. -/
theorem stuck_step (hN : ConvNet M sq a b get) (hh : Hosted c a b) (hab : a < b) (s s' : State σ K)
    (hlk : (get s.env.priv).linked = true) (hg : (get s.env.priv).inp.ground = false)
    (hv : (get s.env.priv).out.powerValid = false) (h : step M c s = .ok s') (hc : ∀ r ∈ s'.hist, 0 < r.convergedStep) :
    ((get s'.env.priv).linked = true ∧ (get s'.env.priv).inp.ground = false ∧
      (get s'.env.priv).out.powerValid = false) ∧
    s'.failCount = s.failCount + 1 ∧ ∀ r ∈ s'.hist, r.result = .reject := by
  obtain ⟨na, nb, la, lb, hne, hl, hm, hpz⟩ := hh
  let P : σ → Prop := fun x => SamePlace (get s.env.priv) (get x) ∧ (get x).out.powerValid = false
  have hk := keeps_place hN (get s.env.priv)
  let I : Iter σ K → Prop := fun it => it.s.failCount = s.failCount ∧
    ((∀ r ∈ it.s.hist, 0 < r.convergedStep) →
      it.networkConverged = false ∧ P it.s.env.priv ∧ ∀ r ∈ it.s.hist, r.result = .reject)
  obtain ⟨s1, s2, s3⟩ := stepStart_priv (M := M) (c := c) P
    (fun l e h => ⟨hk.inputs l e h.1, by rw [hN.inputs]; exact h.2⟩)
    (fun e h => ⟨hk.flows e h.1, by rw [hN.flows]; exact h.2⟩) s ⟨⟨rfl, rfl, rfl⟩, hv⟩
  have hbody : ∀ it it', I it → (minorBody M c it = .next it' ∨ minorBody M c it = .brk it') → I it' := by
    rintro it it' ⟨i0, i1⟩ hb
    -- either all records so far are converged, or nothing is claimed
    by_cases hall : ∀ r ∈ it.s.hist, 0 < r.convergedStep
    · obtain ⟨j1, j2, j3⟩ := i1 hall
      rcases minorBody_priv (M := M) (c := c) P (fun l e h => ⟨hk.step l e h.1, (flags_step hN l e).2.trans h.2⟩)
          (fun l m e h => ⟨hk.minor l m e h.1, (flags_minor hN l m e).2.trans h.2⟩)
          (fun l e h => ⟨hk.update l e h.1, by rw [hN.update]; exact h.2⟩) it j2 with
        ⟨t, ht⟩ | ⟨t, ht⟩ | ⟨t, ht⟩ | ⟨t, ht, t1, t2, t3⟩ | ⟨t, ht, t1, t2, t3⟩
      · rw [ht] at hb; rcases hb with hb | hb <;> cases hb
      · rw [ht] at hb; rcases hb with hb | hb <;> cases hb
      · rw [ht] at hb; rcases hb with hb | hb <;> cases hb
      · rw [ht] at hb
        rcases hb with hb | hb
        · cases hb
        · cases hb
          exact ⟨t3.trans i0, fun _ => ⟨rfl, t1, by dsimp only; rw [t2]; exact j3⟩⟩
      · obtain ⟨n, hn⟩ : ∃ n, n = countConverged c { it with s := t } := ⟨_, rfl⟩
        obtain ⟨q, hq⟩ : ∃ q, q = confirmSolution M c n t.lastMinor t.env := ⟨_, rfl⟩
        have hqr : (pollRec M c { it with s := t }).result = q.result := by rw [hq, hn]; rfl
        have hqn : (pollRec M c { it with s := t }).convergedStep = n := by rw [hn]; rfl
        have hqp : SamePlace (get s.env.priv) (get q.env.priv) := by
          rw [hq]
          exact confirmSolution_priv (fun x => SamePlace (get s.env.priv) (get x)) hk.confirm _ _ _ t1.1
        have hrj : 0 < n → q.result = .reject := by
          intro hn0
          rw [hq]
          obtain ⟨e', ⟨p1, p2⟩, he'⟩ := poll_at (M := M) (c := c) P a na la n t.lastMinor
            (fun l e hla h => ⟨hk.confirm l _ _ e h.1,
              (powerValid_confirm hN l _ _ e (by omega)).trans h.2⟩) t.env t1
          have hans : (M.confirm a n t.lastMinor e').1 = .reject := by
            rw [(hN.confirmIn _ _ _).1]
            exact inConfirm_invalid _ n hn0 (p1.1.trans hlk) (p1.2.1.trans hg) p2
          rw [hans] at he'
          exact (confirmSolution_spec M c n t.lastMinor t.env).2.2.1.mpr ⟨a, he'⟩
        have hvoid : ∀ u : State σ K, u.hist = t.hist ++ [pollRec M c { it with s := t }] → ¬ 0 < n →
            ¬ ∀ r ∈ u.hist, 0 < r.convergedStep := by
          intro u hu hn0 hal
          refine hn0 ?_
          have := hal (pollRec M c { it with s := t }) (by rw [hu]; simp)
          rwa [hqn] at this
        have hacc := acceptance_priv (M := M) { it with s := t } hl hm
        rw [← hn] at hacc
        dsimp only at hacc
        rw [← hq] at hacc
        rcases hacc with ⟨hrr, u, v, hu, v1, v2, v3, v4⟩ | ⟨hnr, u, u1, u2, u3, hu⟩
        · rw [ht, hu] at hb
          rcases hb with hb | hb
          · cases hb
            refine ⟨v4.trans (t3.trans i0), fun _ => ⟨j1, ⟨?_, ?_⟩, ?_⟩⟩
            · dsimp only
              rw [v2]
              exact resetLinks_priv (fun x => SamePlace (get s.env.priv) (get x)) hk.reset _ _ _
                (by rw [v1]; exact hqp)
            · dsimp only
              rw [v2]
              exact reset_sets (fun x => (get x).out.powerValid = false) b nb lb _ _
                (fun e => by rw [hN.resetOut]; rfl) (fun l e hlb h => (powerValid_reset hN l _ _ e hlb).trans h) _
            · dsimp only
              rw [v3]
              intro r hr
              rcases List.mem_append.mp hr with hr | hr
              · exact j3 r (t2 ▸ hr)
              · rw [List.mem_singleton.mp hr]
                exact hqr.trans hrr
          · cases hb
        · have hn0 : ¬ 0 < n := fun h => hnr (hrj h)
          rcases hu with ⟨-, hn1, -⟩ | ⟨-, hu⟩
          · exact absurd hn1 hn0
          · rw [ht, hu] at hb
            rcases hb with hb | hb
            · cases hb
              exact ⟨u3.trans (t3.trans i0), fun hal => absurd hal (hvoid u u2 hn0)⟩
            · cases hb
    · -- records are only appended
      rcases minorBody_priv (M := M) (c := c) (fun _ => True) (fun _ _ _ => trivial) (fun _ _ _ _ => trivial)
          (fun _ _ _ => trivial) it trivial with
        ⟨t, ht⟩ | ⟨t, ht⟩ | ⟨t, ht⟩ | ⟨t, ht, -, t2, t3⟩ | ⟨t, ht, -, t2, t3⟩
      · rw [ht] at hb; rcases hb with hb | hb <;> cases hb
      · rw [ht] at hb; rcases hb with hb | hb <;> cases hb
      · rw [ht] at hb; rcases hb with hb | hb <;> cases hb
      · rw [ht] at hb
        rcases hb with hb | hb
        · cases hb
        · cases hb
          exact ⟨t3.trans i0, fun hal => absurd hal (by dsimp only; rw [t2]; exact hall)⟩
      · have hvoid : ∀ u : State σ K, u.hist = t.hist ++ [pollRec M c { it with s := t }] →
            ¬ ∀ r ∈ u.hist, 0 < r.convergedStep := by
          intro u hu hal
          refine hall fun r hr => hal r ?_
          rw [hu, t2]
          exact List.mem_append_left _ hr
        rcases acceptance_priv (M := M) { it with s := t } hl hm with
          ⟨-, u, v, hu, -, -, v3, v4⟩ | ⟨-, u, -, u2, u3, hu⟩
        · rw [ht, hu] at hb
          rcases hb with hb | hb
          · cases hb
            exact ⟨v4.trans (t3.trans i0), fun hal => absurd hal (hvoid u v3)⟩
          · cases hb
        · have : it'.s = u := by
            rcases hu with ⟨-, -, hu | ⟨-, hu⟩⟩ | ⟨-, hu⟩ <;> rw [ht, hu] at hb <;> rcases hb with hb | hb <;> cases hb <;>
              rfl
          exact ⟨by rw [this]; exact u3.trans (t3.trans i0), fun hal => absurd hal (by rw [this]; exact hvoid u u2)⟩
  obtain ⟨it, ⟨j0, j1⟩, rfl⟩ := step_inv I I hl hm hpz s s' h
    ⟨s3, fun _ => ⟨rfl, s1, by dsimp only; rw [s2]; simp⟩⟩ (fun it k hi => hi) (fun it hi => hi)
    (fun it it' hi hb => hbody it it' hi (Or.inl hb)) (fun it it' hi hb => hbody it it' hi (Or.inr hb))
  have hhist : (finishStep M c it).hist = it.s.hist := by
    cases hcv : it.networkConverged with
    | false => exact (finishStep_failed (M := M) (c := c) it hcv).2.2
    | true => exact (finishStep_done (M := M) (c := c) it hcv (fun _ => True) (fun _ _ => trivial)
        (fun _ _ _ => trivial) trivial).2.2
  rw [hhist] at hc ⊢
  obtain ⟨j2, j3, j4⟩ := j1 hc
  obtain ⟨f1, f2, -⟩ := finishStep_failed (M := M) (c := c) it j2
  rw [f1, f2, j0]
  exact ⟨⟨j3.1.1.trans hlk, j3.1.2.1.trans hg, j3.2⟩, rfl, j4⟩

end

end Gunns.Conv
