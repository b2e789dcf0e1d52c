import Verif.Solver.Frame

/-!
# Facts about the minor step loop
-/

set_option linter.unusedSectionVars false

namespace Gunns

variable {σ K : Type _} [Field K] [LinearOrder K]

/-! ## Calls -/

theorem stepLinks_calls (M : Methods σ K) (c : Cfg K) (s : State σ K) :
    (stepLinks M c s).calls = s.calls ++
      (if s.lastMinor = 1 then (List.range c.numLinks).map Call.step
       else ((List.range c.numLinks).filter (fun l => c.nonLinear l)).map (Call.minor · s.lastMinor)) ∧
    (stepLinks M c s).lastMinor = s.lastMinor ∧ (stepLinks M c s).hist = s.hist := by
  unfold stepLinks
  refine loop_inv (P := fun k (t : State σ K) => t.calls = s.calls ++
      (if s.lastMinor = 1 then (List.range k).map Call.step
       else ((List.range k).filter (fun l => c.nonLinear l)).map (Call.minor · s.lastMinor)) ∧
    t.lastMinor = s.lastMinor ∧ t.hist = s.hist) _ ?_ ?_
  · simp
  · rintro k - t ⟨h1, h2, h3⟩
    dsimp only
    split
    · rename_i h
      rw [h2] at h
      simp only [if_pos h] at h1 ⊢
      simp [h1, h2, h3, List.range_succ]
    · rename_i h
      rw [h2] at h
      simp only [if_neg h] at h1 ⊢
      split
      · rename_i hn
        simp [h1, h2, h3, List.range_succ, hn]
      · rename_i hn
        simp [h1, h2, h3, List.range_succ, hn]

theorem resetLinks_calls (M : Methods σ K) (c : Cfg K) (a b : Nat) (s : State σ K) :
    (resetLinks M c a b s).calls = s.calls ++
      ((List.range c.numLinks).filter (fun l => c.nonLinear l)).map Call.reset := by
  unfold resetLinks
  refine loop_inv (P := fun k (t : State σ K) => t.calls = s.calls ++
      ((List.range k).filter (fun l => c.nonLinear l)).map Call.reset) _ ?_ ?_
  · simp
  · rintro k - t h1
    dsimp only
    split
    · rename_i hn
      simp [h1, List.range_succ, hn]
    · rename_i hn
      simp [h1, List.range_succ, hn]

/-! ## Polling of the links -/

theorem combine_reject (k : Nat) (r a : SolRes) : combine k r a = .reject ↔ r = .reject ∨ a = .reject := by
  unfold combine
  cases r <;> cases a <;> by_cases h : k = 0 <;> simp [h]

theorem combine_delay (k : Nat) (r a : SolRes) :
    combine k r a = .delay ↔ (r = .delay ∧ a ≠ .reject) ∨ (r ≠ .reject ∧ a = .delay ∧ 0 < k) := by
  unfold combine
  cases r <;> cases a <;> by_cases h : k = 0 <;> simp [h, Nat.pos_iff_ne_zero]

theorem confirmSolution_spec (M : Methods σ K) (c : Cfg K) (k n : Nat) (e : Env σ K) :
    let p := confirmSolution M c k n e
    p.answers.map Prod.fst = (List.range c.numLinks).filter (fun l => c.nonLinear l) ∧
    p.calls = ((List.range c.numLinks).filter (fun l => c.nonLinear l)).map (Call.poll · k n) ∧
    (p.result = .reject ↔ ∃ l, (l, SolRes.reject) ∈ p.answers) ∧
    (p.result = .delay ↔ (¬ ∃ l, (l, SolRes.reject) ∈ p.answers) ∧ 0 < k ∧
      ∃ l, (l, SolRes.delay) ∈ p.answers) := by
  intro p
  let P : Nat → Poll σ K → Prop := (fun m (p : Poll σ K) =>
      p.answers.map Prod.fst = (List.range m).filter (fun l => c.nonLinear l) ∧
      p.calls = ((List.range m).filter (fun l => c.nonLinear l)).map (Call.poll · k n) ∧
      (p.result = .reject ↔ ∃ l, (l, SolRes.reject) ∈ p.answers) ∧
      (p.result = .delay ↔ (¬ ∃ l, (l, SolRes.reject) ∈ p.answers) ∧ 0 < k ∧
        ∃ l, (l, SolRes.delay) ∈ p.answers))
  have h : P c.numLinks (confirmSolution M c k n e) := by
    unfold confirmSolution
    refine loop_inv P _ ?_ ?_
    · simp [P]
    · rintro m - q ⟨h1, h2, h3, h4⟩
      dsimp only
      split
      · rename_i hn
        refine ⟨by simp [h1, List.range_succ, hn], by simp [h2, List.range_succ, hn], ?_, ?_⟩
        · rw [combine_reject, h3]
          constructor
          · rintro (⟨l, h⟩ | h)
            · exact ⟨l, by simp [h]⟩
            · exact ⟨m, by simp [h]⟩
          · rintro ⟨l, h⟩
            simp only [List.mem_append, List.mem_singleton, Prod.mk.injEq] at h
            rcases h with h | ⟨-, h⟩
            · exact .inl ⟨l, h⟩
            · exact .inr h.symm
        · rw [combine_delay, h4, Ne, Ne, h3]
          simp only [List.mem_append, List.mem_singleton, Prod.mk.injEq, not_exists, not_or, not_and]
          constructor
          · rintro (⟨⟨h5, h6, l, h7⟩, h8⟩ | ⟨h5, h6, h7⟩)
            · exact ⟨fun x => ⟨h5 x, fun _ h => h8 h.symm⟩, h6, l, .inl h7⟩
            · refine ⟨fun x => ⟨h5 x, fun _ h => ?_⟩, h7, m, .inr ⟨rfl, h6.symm⟩⟩
              rw [← h] at h6; exact absurd h6 (by simp)
          · rintro ⟨h5, h6, l, h7 | ⟨rfl, h7⟩⟩
            · exact .inl ⟨⟨fun x => (h5 x).1, h6, l, h7⟩, fun h => (h5 m).2 rfl h.symm⟩
            · exact .inr ⟨fun x => (h5 x).1, h7.symm, h6⟩
      · rename_i hn
        exact ⟨by simp [h1, List.range_succ, hn], by simp [h2, List.range_succ, hn], h3, h4⟩
  exact h

/-! ## Convergence check -/

theorem checkConvergence_iff (c : Cfg K) (s : State σ K) :
    checkConvergence c s = true ↔ ∀ n, n < c.size → |s.minorPot n - s.pot n| ≤ c.tolerance := by
  unfold checkConvergence
  have h := loop_inv (P := fun k (last : Int) => (last < 0 ↔ ∀ n, n < k → |s.minorPot n - s.pot n| ≤ c.tolerance))
    (f := fun n (last : Int) => if c.tolerance < |s.minorPot n - s.pot n| then (n : Int) else last)
    c.size (s := -1) (by simp) (by
      rintro k - last ih
      split
      · rename_i hk
        constructor
        · intro h; exact absurd h (by omega)
        · intro h; exact absurd (h k (by omega)) (not_le.mpr hk)
      · rename_i hk
        rw [ih]
        constructor
        · intro h n hn
          rcases Nat.lt_succ_iff_lt_or_eq.mp hn with h' | rfl
          · exact h n h'
          · exact not_lt.mp hk
        · intro h n hn; exact h n (by omega))
  simpa using h

/-! ## Counters over the minor step loop -/

/-- Counters over a run of the minor step loop of at most `fuel` rounds. -/
structure LoopCounts (c : Cfg K) (fuel : Nat) (s s' : State σ K) : Prop where
  majorCount : s'.majorCount = s.majorCount
  majorPot : s'.majorPot = s.majorPot
  failCount : s'.failCount = s.failCount
  maxDecomp : s'.maxDecomp = s.maxDecomp
  counts : ∃ n d, n ≤ fuel ∧ (0 < fuel → 0 < n) ∧ d ≤ n ∧
    s'.minorCount = s.minorCount + n ∧
    s'.lastDecomp = s.lastDecomp + d ∧ s'.decompCount = s.decompCount + d ∧ s'.decomps = s.decomps + d ∧
    (0 < d → s.lastDecomp + d ≤ c.decompositionLimit) ∧
    (0 < n → s'.maxMinor = max s.maxMinor (s.lastMinor + n - 1)) ∧
    ((0 < n ∧ s'.lastMinor = s.lastMinor + n - 1) ∨ (n = fuel ∧ s'.lastMinor = s.lastMinor + n))

theorem LoopCounts.one {c : Cfg K} {fuel : Nat} {s s' : State σ K} (h : BodyCounts c s s') :
    LoopCounts c (fuel + 1) s s' := by
  obtain ⟨d, h1, h2, h3, h4, h5⟩ := h.decomp
  refine ⟨h.majorCount, h.majorPot, h.failCount, h.maxDecomp, 1, d, by omega, by omega, h1, h.minorCount,
    h2, h3, h4, ?_, ?_, ?_⟩
  · intro h6; have := h5 (by omega); omega
  · intro _; exact h.maxMinor
  · exact .inl ⟨by omega, h.lastMinor⟩

theorem minorLoop_counts (M : Methods σ K) (c : Cfg K) (fuel : Nat) :
    ∀ it : Iter σ K, LoopCounts c fuel it.s (minorLoop M c fuel it).val.s := by
  induction fuel with
  | zero =>
    intro it
    exact ⟨rfl, rfl, rfl, rfl, 0, 0, le_rfl, by omega, le_rfl, rfl, rfl, rfl, rfl, by omega, by omega,
      .inr ⟨rfl, rfl⟩⟩
  | succ fuel ih =>
    intro it
    have hb := minorBody_counts M c it
    unfold minorLoop
    split
    · rename_i it' heq
      rw [heq] at hb
      simp only [BodyOutcome.val] at hb
      obtain ⟨g1, g2, g3, g4, n, d, i1, i2, i3, i4, i5, i6, i7, i8, i9, i10⟩ :=
        ih { it' with s := { it'.s with lastMinor := it'.s.lastMinor + 1 } }
      obtain ⟨d0, h1, h2, h3, h4, h5⟩ := hb.decomp
      simp only at g1 g2 g3 g4 i4 i5 i6 i7 i8 i9 i10
      refine ⟨g1.trans hb.majorCount, g2.trans hb.majorPot, g3.trans hb.failCount, g4.trans hb.maxDecomp,
        n + 1, d0 + d, by omega, by omega, by omega, ?_, ?_, ?_, ?_, ?_, ?_, ?_⟩
      · rw [i4, hb.minorCount]; omega
      · rw [i5, h2]; omega
      · rw [i6, h3]; omega
      · rw [i7, h4]; omega
      · intro hd
        rcases Nat.eq_zero_or_pos d with h0 | h0
        · have := h5 (by omega); omega
        · have := i8 h0; omega
      · intro _
        have hl := hb.lastMinor
        have hm := hb.maxMinor
        rcases Nat.eq_zero_or_pos n with h0 | h0
        · subst h0
          have : fuel = 0 := by omega
          subst this
          simp only [minorLoop, Outcome.val]
          rw [hm]; congr 1
        · rw [i9 h0, hm, hl]; omega
      · have hl := hb.lastMinor
        rcases i10 with ⟨h0, h1⟩ | ⟨h0, h1⟩
        · left; exact ⟨by omega, by rw [h1, hl]; omega⟩
        · right; exact ⟨by omega, by rw [h1, hl]; omega⟩
    all_goals
      rename_i heq
      rw [heq] at hb
      exact LoopCounts.one hb

end Gunns
