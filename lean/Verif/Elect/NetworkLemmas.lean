import Verif.Elect.Network
import Verif.Props.Switch
import Verif.Solver.LoopLemmas

/-!
# Lemmas about switches in a network
-/

set_option linter.unusedSectionVars false

namespace Gunns

variable {σ K : Type _} [Field K] [LinearOrder K]

/-- Rule for invariants of the minor step loop. -/
theorem minorLoop_inv {M : Methods σ K} {c : Cfg K} (P Q : Iter σ K → Prop) (hQ : ∀ it, P it → Q it)
    (hnext : ∀ it it', P it → minorBody M c it = .next it' →
      P { it' with s := { it'.s with lastMinor := it'.s.lastMinor + 1 } })
    (hbrk : ∀ it it', P it → minorBody M c it = .brk it' → Q it') (fuel : Nat) :
    ∀ it it' : Iter σ K, P it → minorLoop M c fuel it = .ok it' → Q it' := by
  induction fuel with
  | zero =>
    intro it it' hi h
    simp only [minorLoop, Outcome.ok.injEq] at h
    subst h
    exact hQ _ hi
  | succ fuel ih =>
    intro it it' hi h
    unfold minorLoop at h
    split at h
    · rename_i it1 he
      exact ih _ _ (hnext _ _ hi he) h
    · rename_i it1 he
      simp only [Outcome.ok.injEq] at h
      subst h
      exact hbrk _ _ hi he
    · simp at h
    · simp at h
    · simp at h

/-- The acceptance part, with the environment it leaves. -/
theorem acceptance_env (M : Methods σ K) (c : Cfg K) (it : Iter σ K) (hl : c.linear = false)
    (hm : c.mode = .normal) :
    ((pollRec M c it).result ≠ .reject →
      (acceptance M c it).val.env = (confirmSolution M c (countConverged c it) it.s.lastMinor it.s.env).env) := by
  intro hr
  have hr' : (confirmSolution M c (countConverged c it) it.s.lastMinor it.s.env).result ≠ .reject := hr
  unfold acceptance
  rw [if_pos ⟨hl, hm⟩]
  dsimp only
  rw [if_neg hr']
  split
  · split <;> rfl
  · rfl

end Gunns

namespace Gunns.Sw

open Gunns

variable {σ K : Type _} [Field K] [LinearOrder K] [IsStrictOrderedRing K]

open Gunns.Props in
/-- A trip is latched or cleared exactly by a pending switch whose turn has come. -/
theorem changes_iff {s : Switch K} (hs : Reached s) {p : Nat} (hp : Priority s p) (i v : K) (n : Nat) (hn : 0 < n) :
    (∃ w, ((s.updateTrips i v n).get w).tripped ≠ (s.get w).tripped) ↔ Pending s i v ∧ n = p := by
  constructor
  · rintro ⟨w, hw⟩
    cases h0 : (s.get w).tripped with
    | false =>
      rw [h0, Ne, Bool.not_eq_false] at hw
      obtain ⟨a, -, b, d, e⟩ := (c39_trips_exactly hs i v n w h0).mp hw
      refine ⟨Or.inl ⟨b, w, a, d⟩, ?_⟩
      unfold Turn at e
      rw [(hp w).1, (hp w).2] at e
      simpa using e
    | true =>
      rw [h0, Ne, Bool.not_eq_true] at hw
      obtain ⟨-, b, r, d, e, f⟩ := (c39_resets_exactly hs i v n w h0).mp hw
      refine ⟨Or.inr ⟨b, w, r, d, e⟩, ?_⟩
      unfold Turn at f
      rw [(hp r).1, (hp r).2] at f
      simpa using f
  · rintro ⟨h | h, hnp⟩
    · obtain ⟨a, w, b, d⟩ := h
      have h0 := a.2.2 w b
      refine ⟨w, ?_⟩
      rw [(c39_trips_exactly hs i v n w h0).mpr ⟨b, hn, a, d, Or.inr (by rw [(hp w).2]; exact hnp)⟩, h0]
      decide
    · obtain ⟨a, w, r, b, d⟩ := h
      have h0 : (s.get w).tripped = true := by
        cases w <;> cases r <;> simp only [ResetOf] at b <;> exact b
      refine ⟨w, ?_⟩
      rw [(c39_resets_exactly hs i v n w h0).mpr ⟨hn, a, r, b, d, Or.inr (by rw [(hp r).2]; exact hnp)⟩, h0]
      decide

theorem due_congr {s t : Switch K} (h : ∀ w, t.get w = s.get w) (i v : K) (w : Which) : Due t i v w ↔ Due s i v w := by
  unfold Due
  rw [h w]
  refine and_congr_right fun _ => and_congr_right fun _ => and_congr_right fun _ => or_congr_right ?_
  have := h w
  cases w <;> simp only [Switch.get] at this <;> simp only [Beyond] <;> rw [this]

theorem pending_congr {s t : Switch K} (h : ∀ w, t.get w = s.get w) (h1 : t.command = s.command)
    (h2 : t.failClosed = s.failClosed) (h3 : t.failOpen = s.failOpen) (i v : K) :
    Pending t i v ↔ Pending s i v := by
  unfold Pending Watching Recovering
  have hR : ∀ w r, ResetOf t w r ↔ ResetOf s w r := by
    intro w r
    have a := h .uv
    have b := h .ov
    simp only [Switch.get] at a b
    cases w <;> cases r <;> simp only [ResetOf] <;> first | rw [a] | rw [b]
  have a := h .uv
  have b := h .ov
  have a' := h .posAmps
  have b' := h .negAmps
  simp only [Switch.get] at a b a' b'
  simp only [h, h1, h2, h3, due_congr h, hR, a, b, a', b']

open Gunns.Props in
/-- The answers of a switch. -/
theorem answer_spec {s : Switch K} (hs : Reached s) {p : Nat} (hp : Priority s p) (i v : K) (n : Nat) (hn : 0 < n) :
    let r := linkConfirm s i v n;
    (r.1 = .reject ↔ Pending s i v ∧ n = p) ∧ (r.1 = .confirm ↔ ¬ Pending s i v) ∧
    (r.1 ≠ .reject → (Pending r.2 i v ↔ Pending s i v)) ∧ r.2 = s.updateTrips i v n := by
  intro r
  have hr : r = linkConfirm s i v n := rfl
  unfold linkConfirm at hr
  have hn' : n > 0 := hn
  rw [if_pos hn'] at hr
  dsimp only at hr
  have hch := changes_iff hs hp i v n hn
  obtain ⟨hj, hw⟩ := c39_flags hs i v n
  have hw' : (s.updateTrips i v n).waiting = true ↔
      (∀ w, ((s.updateTrips i v n).get w).tripped = (s.get w).tripped) ∧ Pending s i v :=
    hw.trans (and_congr_right fun _ => by rw [and_iff_right hn]; rfl)
  have hno : (∀ w, ((s.updateTrips i v n).get w).tripped = (s.get w).tripped) ↔ ¬ (Pending s i v ∧ n = p) := by
    rw [← hch]
    push Not
    rfl
  rw [hno] at hw'
  rw [hch] at hj
  obtain ⟨k1, k2, k3, k4, -⟩ := updateTrips_keeps (reached_fresh hs) i v n
  have hr2 : r.2 = s.updateTrips i v n := by rw [hr]
  have hr1 : r.1 = if (s.updateTrips i v n).waiting then SolRes.delay
      else if (s.updateTrips i v n).just then .reject else .confirm := by rw [hr]
  have e1 : r.1 = .reject ↔ Pending s i v ∧ n = p := by
    rw [hr1]
    by_cases hP : Pending s i v ∧ n = p
    · have : (s.updateTrips i v n).waiting = false := by
        rw [Bool.eq_false_iff]
        intro h
        exact (hw'.mp h).1 hP
      rw [this, hj.mpr hP]
      exact ⟨fun _ => hP, fun _ => rfl⟩
    · have : (s.updateTrips i v n).just = false := by
        rw [Bool.eq_false_iff]
        exact fun h => hP (hj.mp h)
      rw [this]
      refine ⟨fun h => absurd h ?_, fun h => absurd h hP⟩
      cases (s.updateTrips i v n).waiting <;> decide
  refine ⟨e1, ?_, ?_, hr2⟩
  · rw [hr1]
    by_cases hP : Pending s i v
    · by_cases hnp : n = p
      · have : (s.updateTrips i v n).waiting = false := by
          rw [Bool.eq_false_iff]
          intro h
          exact (hw'.mp h).1 ⟨hP, hnp⟩
        rw [this, hj.mpr ⟨hP, hnp⟩]
        simp [hP]
      · rw [hw'.mpr ⟨fun h => hnp h.2, hP⟩]
        simp [hP]
    · have h1 : (s.updateTrips i v n).waiting = false := by
        rw [Bool.eq_false_iff]
        exact fun h => hP (hw'.mp h).2
      have h2 : (s.updateTrips i v n).just = false := by
        rw [Bool.eq_false_iff]
        exact fun h => hP (hj.mp h).1
      rw [h1, h2]
      simp [hP]
  · intro h
    rw [hr2]
    refine pending_congr (fun w => ?_) k4 k2 k3 i v
    obtain ⟨a, b, d, f⟩ := k1 w
    have g := hno.mpr (fun q => h (e1.mpr q)) w
    revert a b d f g
    generalize (s.updateTrips i v n).get w = x
    generalize s.get w = y
    cases x
    cases y
    intro a b d f g
    simp_all

/-! ## Polling -/

variable {M : Methods σ K} {c : Cfg K} {isSw : Nat → Prop} {sw : Nat → σ → Switch K} {amps volts : Nat → Env σ K → K}

theorem poll_spec (hN : SwitchNet M isSw sw amps volts) (n m : Nat) (e : Env σ K) :
    let q := confirmSolution M c n m e;
    (∀ l, isSw l → amps l q.env = amps l e ∧ volts l q.env = volts l e) ∧
    (∀ l, isSw l → ¬ Polled c isSw l → sw l q.env.priv = sw l e.priv) ∧
    ∀ l, Polled c isSw l →
      sw l q.env.priv = (linkConfirm (sw l e.priv) (amps l e) (volts l e) n).2 ∧
      ∀ a, (l, a) ∈ q.answers ↔ a = (linkConfirm (sw l e.priv) (amps l e) (volts l e) n).1 := by
  intro q
  let P : Nat → Poll σ K → Prop := fun k t =>
    (∀ l, isSw l → amps l t.env = amps l e ∧ volts l t.env = volts l e) ∧
    (∀ l, isSw l → (l < k → c.nonLinear l = false) → sw l t.env.priv = sw l e.priv) ∧
    (∀ l a, (l, a) ∈ t.answers → l < k) ∧
    ∀ l, l < k → c.nonLinear l = true → isSw l →
      sw l t.env.priv = (linkConfirm (sw l e.priv) (amps l e) (volts l e) n).2 ∧
      ∀ a, (l, a) ∈ t.answers ↔ a = (linkConfirm (sw l e.priv) (amps l e) (volts l e) n).1
  have h : P c.numLinks q := by
    refine loop_inv P _ ⟨fun l _ => ⟨rfl, rfl⟩, fun l _ _ => rfl, fun l a h => by simp at h, fun l h => by omega⟩ ?_
    rintro k - t ⟨h1, h2, h3, h4⟩
    dsimp only
    split
    · rename_i hk
      refine ⟨fun l hl => ?_, fun l hl hlk => ?_, fun l a h => ?_, fun l hlk hnl hl => ?_⟩
      · obtain ⟨a, b⟩ := hN.readings l k n m t.env hl
        exact ⟨a.trans (h1 l hl).1, b.trans (h1 l hl).2⟩
      · have hne : k ≠ l := by
          rintro rfl
          rw [hlk (by omega)] at hk
          cases hk
        exact (hN.confirmOther l k n m t.env hl hne).trans (h2 l hl fun h => hlk (by omega))
      · simp only [List.mem_append, List.mem_singleton, Prod.mk.injEq] at h
        rcases h with h | ⟨rfl, -⟩
        · have := h3 l a h; omega
        · omega
      · by_cases hlk' : l = k
        · subst hlk'
          obtain ⟨a, b⟩ := hN.confirm l n m t.env hl
          have es : sw l t.env.priv = sw l e.priv := h2 l hl (fun h => by omega)
          rw [es, (h1 l hl).1, (h1 l hl).2] at a b
          refine ⟨b, fun x => ?_⟩
          simp only [List.mem_append, List.mem_singleton, Prod.mk.injEq, true_and]
          constructor
          · rintro (h | h)
            · exact absurd (h3 l x h) (lt_irrefl _)
            · exact h.trans a
          · intro h
            exact Or.inr (h.trans a.symm)
        · obtain ⟨a, b⟩ := h4 l (by omega) hnl hl
          refine ⟨(hN.confirmOther l k n m t.env hl (fun h => hlk' h.symm)).trans a, fun x => ?_⟩
          rw [← b x]
          simp only [List.mem_append, List.mem_singleton, Prod.mk.injEq]
          constructor
          · rintro (h | ⟨h, -⟩)
            · exact h
            · exact absurd h hlk'
          · exact Or.inl
    · rename_i hk
      have hk' : c.nonLinear k = false := by
        rw [Bool.eq_false_iff]
        exact hk
      refine ⟨h1, fun l hl hlk => h2 l hl (fun h => hlk (by omega)), fun l a h => ?_, fun l hlk hnl hl => ?_⟩
      · have := h3 l a h; omega
      · have hne : l ≠ k := by
          rintro rfl
          rw [hk'] at hnl
          cases hnl
        exact h4 l (by omega) hnl hl
  obtain ⟨a, b, -, d⟩ := h
  refine ⟨a, fun l hl hnp => b l hl fun hlk => ?_, fun l hl => d l hl.1 hl.2.1 hl.2.2⟩
  rw [Bool.eq_false_iff]
  exact fun hnl => hnp ⟨hlk, hnl, hl⟩

/-! ## The minor step loop -/

/-- The loop before a round. -/
structure CoordInv (c : Cfg K) (isSw : Nat → Prop) (sw : Nat → σ → Switch K) (amps volts : Nat → Env σ K → K)
    (prio : Nat → Nat) (it : Iter σ K) : Prop where
  notYet : it.networkConverged = false
  hist : ∀ r ∈ it.s.hist, Coordinated c isSw prio r
  run : (it.convergedStep = 0 ∧ it.result ≠ .delay) ∨
    (0 < it.convergedStep ∧ it.result = .delay ∧ ∀ l, Polled c isSw l →
      Pending (sw l it.s.env.priv) (amps l it.s.env) (volts l it.s.env) → it.convergedStep < prio l)

/-- The loop after its end. -/
structure CoordFin (c : Cfg K) (isSw : Nat → Prop) (sw : Nat → σ → Switch K) (amps volts : Nat → Env σ K → K)
    (prio : Nat → Nat) (it : Iter σ K) : Prop where
  hist : ∀ r ∈ it.s.hist, Coordinated c isSw prio r
  quiet : it.networkConverged = true → ∀ l, Polled c isSw l →
    ¬ Pending (sw l it.s.env.priv) (amps l it.s.env) (volts l it.s.env)

/-- The polled switches whose turn was missed are quiet. -/
theorem before_poll {prio : Nat → Nat} (h0 : ∀ l, isSw l → 0 < prio l) {it it1 : Iter σ K}
    (hs : Solved M c it it1) (hi : CoordInv c isSw sw amps volts prio it) :
    it1.networkConverged = false ∧ it1.s.hist = it.s.hist ∧
    (0 < countConverged c it1 → ∀ l, Polled c isSw l →
      Pending (sw l it1.s.env.priv) (amps l it1.s.env) (volts l it1.s.env) → countConverged c it1 ≤ prio l) := by
  cases hs with
  | skip s' hd hp hm hh he hcl =>
    refine ⟨hi.notYet, hh, fun hc l hl hpend => ?_⟩
    rcases hi.run with ⟨-, h2⟩ | ⟨h1, h2, h3⟩
    · exact absurd hd h2
    · dsimp only at hpend ⊢
      rw [he] at hpend
      have := h3 l hl hpend
      have e : countConverged c { it with s := s' } = it.convergedStep + 1 := by
        unfold countConverged
        exact if_pos (Or.inl hd)
      rw [e]
      omega
  | solve s' hd hm hh ha hcl =>
    refine ⟨hi.notYet, hh, fun hc l hl hpend => ?_⟩
    rcases hi.run with ⟨h1, h2⟩ | ⟨-, h2, -⟩
    · have : countConverged c { it with s := s' } ≤ 1 := by
        unfold countConverged
        dsimp only
        rw [h1]
        split <;> omega
      have := h0 l hl.2.2
      omega
    · exact absurd h2 hd

/-- One poll. -/
theorem poll_coordinated (hN : SwitchNet M isSw sw amps volts) {prio : Nat → Nat}
    (hp : ∀ l x, isSw l → Priority (sw l x) (prio l)) {it1 : Iter σ K}
    (hpr : 0 < countConverged c it1 → ∀ l, Polled c isSw l →
      Pending (sw l it1.s.env.priv) (amps l it1.s.env) (volts l it1.s.env) → countConverged c it1 ≤ prio l) :
    Coordinated c isSw prio (pollRec M c it1) ∧
    let e := (confirmSolution M c (countConverged c it1) it1.s.lastMinor it1.s.env).env;
    (pollRec M c it1).result ≠ .reject → 0 < countConverged c it1 → ∀ l, Polled c isSw l →
      (Pending (sw l e.priv) (amps l e) (volts l e) →
        countConverged c it1 < prio l ∧ ∀ a, (l, a) ∈ (pollRec M c it1).answers → a ≠ .confirm) := by
  obtain ⟨hread, -, hsw⟩ := poll_spec (c := c) hN (countConverged c it1) it1.s.lastMinor it1.s.env
  have hans : ∀ l, Polled c isSw l → ∀ a, (l, a) ∈ (pollRec M c it1).answers ↔
      a = (linkConfirm (sw l it1.s.env.priv) (amps l it1.s.env) (volts l it1.s.env) (countConverged c it1)).1 :=
    fun l hl => (hsw l hl).2
  have hzero : ∀ l, Polled c isSw l → (l, SolRes.reject) ∈ (pollRec M c it1).answers → 0 < countConverged c it1 := by
    intro l hl h
    by_contra hc
    have := (hans l hl _).mp h
    unfold linkConfirm at this
    rw [if_neg (by omega)] at this
    cases this
  constructor
  · intro l hl hrej
    have hc := hzero l hl hrej
    obtain ⟨h1, -⟩ := answer_spec (hN.reached l it1.s.env.priv hl.2.2) (hp l it1.s.env.priv hl.2.2) (amps l it1.s.env)
      (volts l it1.s.env) _ hc
    obtain ⟨-, hcp⟩ := h1.mp ((hans l hl _).mp hrej).symm
    refine ⟨hcp, fun l' hl' hlt a => ?_⟩
    obtain ⟨-, h2, -⟩ := answer_spec (hN.reached l' it1.s.env.priv hl'.2.2) (hp l' it1.s.env.priv hl'.2.2)
      (amps l' it1.s.env) (volts l' it1.s.env) _ hc
    rw [hans l' hl', h2.mpr fun hpend => ?_]
    have := hpr hc l' hl' hpend
    omega
  · intro e hnr hc l hl hpend
    have hnl : (linkConfirm (sw l it1.s.env.priv) (amps l it1.s.env) (volts l it1.s.env) (countConverged c it1)).1 ≠
        .reject := by
      intro h
      obtain ⟨-, -, h2, -⟩ := confirmSolution_spec M c (countConverged c it1) it1.s.lastMinor it1.s.env
      exact hnr (h2.mpr ⟨l, (hans l hl _).mpr h.symm⟩)
    obtain ⟨h1, h2, h3, -⟩ := answer_spec (hN.reached l it1.s.env.priv hl.2.2) (hp l it1.s.env.priv hl.2.2)
      (amps l it1.s.env) (volts l it1.s.env) _ hc
    rw [(hsw l hl).1, (hread l hl.2.2).1, (hread l hl.2.2).2] at hpend
    have hpend' := (h3 hnl).mp hpend
    have hle := hpr hc l hl hpend'
    have hne : countConverged c it1 ≠ prio l := fun h => hnl (h1.mpr ⟨hpend', h⟩)
    refine ⟨by omega, fun a ha hac => ?_⟩
    rw [hans l hl] at ha
    exact (h2.mp (ha.symm.trans hac)) hpend'

theorem minorLoop_coordinated (hN : SwitchNet M isSw sw amps volts) {prio : Nat → Nat}
    (hp : ∀ l x, isSw l → Priority (sw l x) (prio l)) (h0 : ∀ l, isSw l → 0 < prio l) (hl : c.linear = false)
    (hm : c.mode = .normal) (hw : c.worstCaseTiming = false) (fuel : Nat) :
    ∀ it it' : Iter σ K, CoordInv c isSw sw amps volts prio it → minorLoop M c fuel it = .ok it' →
      CoordFin c isSw sw amps volts prio it' := by
  have hsnoc : ∀ {it1 : Iter σ K} {h : List (MinorRec K)}, (∀ r ∈ h, Coordinated c isSw prio r) →
      Coordinated c isSw prio (pollRec M c it1) → ∀ r ∈ h ++ [pollRec M c it1], Coordinated c isSw prio r := by
    intro it1 h h1 h2 r hr
    rcases List.mem_append.mp hr with hr | hr
    · exact h1 r hr
    · rw [List.mem_singleton.mp hr]; exact h2
  refine minorLoop_inv (CoordInv c isSw sw amps volts prio) (CoordFin c isSw sw amps volts prio)
    (fun it h => ⟨h.hist, fun hc => by rw [h.notYet] at hc; cases hc⟩) ?_ ?_ fuel
  · intro it it' hi h
    have hb := minorBody_cases M c it
    rw [h] at hb
    generalize hB : BodyOutcome.next it' = B at hb
    cases hb with
    | numeric s' => cases hB
    | nan s' => cases hB
    | ub s' => cases hB
    | limit s' => cases hB
    | accept it1 hs hlm =>
      obtain ⟨b1, b2, b3⟩ := before_poll h0 hs hi
      obtain ⟨p1, p2⟩ := poll_coordinated hN hp b3
      have henv := acceptance_env M c it1 hl hm
      have hcases := acceptance_cases M c it1 hl hm
      rw [← hB] at hcases henv
      generalize hB' : BodyOutcome.next it' = B at hcases
      cases hcases with
      | reject s' hr hh hm' hp' =>
        cases hB'
        refine ⟨b1, ?_, .inl ⟨rfl, by simp⟩⟩
        dsimp only
        rw [hh]
        exact hsnoc (b2 ▸ hi.hist) p1
      | go s' hr hh hm' hp' hc =>
        cases hB'
        refine ⟨b1, ?_, ?_⟩
        · dsimp only
          rw [hh]
          exact hsnoc (b2 ▸ hi.hist) p1
        · dsimp only
          have he : s'.env = _ := henv hr
          rw [he]
          rcases Nat.eq_zero_or_pos (countConverged c it1) with hz | hz
          · refine .inl ⟨hz, fun hd => ?_⟩
            obtain ⟨-, -, -, h3⟩ := confirmSolution_spec M c (countConverged c it1) it1.s.lastMinor it1.s.env
            have := (h3.mp hd).2.1
            omega
          · have hd : (pollRec M c it1).result = .delay := by
              rcases hres : (pollRec M c it1).result with _ | _ | _
              · exact absurd hres hr
              · have := hc hres; omega
              · rfl
            exact .inr ⟨hz, hd, fun l hl' hpend => (p2 hr hz l hl' hpend).1⟩
      | done s' hr hh hm' hp' hc => cases hB'
      | wait s' hr hh hm' hp' hc hw' => rw [hw] at hw'; cases hw'
  · intro it it' hi h
    have hb := minorBody_cases M c it
    rw [h] at hb
    generalize hB : BodyOutcome.brk it' = B at hb
    cases hb with
    | numeric s' => cases hB
    | nan s' => cases hB
    | ub s' => cases hB
    | limit s' hd hm' hh =>
      cases hB
      exact ⟨by dsimp only; rw [hh]; exact hi.hist, fun hc => by cases hc⟩
    | accept it1 hs hlm =>
      obtain ⟨b1, b2, b3⟩ := before_poll h0 hs hi
      obtain ⟨p1, p2⟩ := poll_coordinated hN hp b3
      have henv := acceptance_env M c it1 hl hm
      have hcases := acceptance_cases M c it1 hl hm
      rw [← hB] at hcases henv
      generalize hB' : BodyOutcome.brk it' = B at hcases
      cases hcases with
      | reject s' hr hh hm' hp' => cases hB'
      | go s' hr hh hm' hp' hc => cases hB'
      | done s' hr hh hm' hp' hc =>
        cases hB'
        have hnr : (pollRec M c it1).result ≠ .reject := by rw [hr]; decide
        refine ⟨?_, fun _ l hl' hpend => ?_⟩
        · dsimp only
          rw [hh]
          exact hsnoc (b2 ▸ hi.hist) p1
        · have he : s'.env = _ := henv hnr
          dsimp only at hpend
          rw [he] at hpend
          have hno := (p2 hnr hc l hl' hpend).2
          obtain ⟨h1, h2⟩ := pollRec_confirm M c it1 hr hc
          have hmem : l ∈ (pollRec M c it1).answers.map Prod.fst := by
            rw [h1, List.mem_filter, List.mem_range]
            exact ⟨hl'.1, hl'.2.1⟩
          obtain ⟨⟨l2, a⟩, ha, rfl⟩ := List.mem_map.mp hmem
          exact hno a ha (h2 _ ha)
      | wait s' hr hh hm' hp' hc hw' => cases hB'

end Gunns.Sw
