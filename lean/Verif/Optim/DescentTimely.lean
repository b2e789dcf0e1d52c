import Verif.Optim.DescentRun

set_option linter.unusedSectionVars false

namespace Gunns.Optim.Descent

open Gunns.Elements Gunns.Optim.Descent.Spec

variable {K : Type _} [Field K] [LinearOrder K] [IsStrictOrderedRing K]
variable {cfg : Config K} {ins : Inputs K}

theorem fresh_back {l : Log K} {id : Int} {v : K} (hf : Fresh l.desc) (hid : 0 ≤ id) :
    step cfg ins l (.back id v) = none := by
  have : assignCost ins v id l.desc = none :=
    assign_none (by have := hf.2.2.2.1; omega) (fun p _ => by have := hf.2.2.2.2 p; omega)
  simp only [step, this]

theorem counted_step {d0 : Desc K} {l l' : Log K} (hin : Ranged ins) (hf : Fresh d0)
    (hc : Counted ins d0 l) (e : Ev K) (hid : ∀ id v, e = .back id v → 0 ≤ id)
    (h : step cfg ins l e = some l') : Counted ins d0 l' := by
  cases e with
  | run =>
    rcases hc with ⟨h0, hd⟩ | ⟨ht, hs, e, r, ha⟩
    · obtain ⟨a1, a2, a3⟩ := at_first h0 (hd ▸ hf) h
      exact Or.inr ⟨a2, by rw [a3, hd], 0, 0, a1⟩
    · have hpos : 0 < l.runs := by rw [ha.runs]; omega
      by_cases hr : r < 2 * ins.dim
      · obtain ⟨a1, a2, a3, _⟩ := at_same hin ha ht hr h
        exact Or.inr ⟨a2, by rw [a3 0 hpos, hs], e, r + 1, a1⟩
      · obtain ⟨a1, a2, a3, _⟩ := at_new hin ha ht (by have := ha.le; omega) h
        exact Or.inr ⟨a2, by rw [a3 0 hpos, hs], e + 1, 0, a1⟩
  | back id v =>
    rcases hc with ⟨h0, hd⟩ | ⟨ht, hs, e, r, ha⟩
    · rw [fresh_back (hd ▸ hf) (hid id v rfl)] at h
      exact absurd h (by simp)
    · exact Or.inr ⟨trials_back h ht, by rw [(back_some h).2.1, hs], e, r, at_back_at h ha⟩

theorem counted_exec {d0 : Desc K} (hin : Ranged ins) (hf : Fresh d0) (t : List (Ev K)) (l : Log K)
    (hid : ∀ id v, Ev.back id v ∈ t → 0 ≤ id) (h : exec cfg ins (Log.fresh d0) t = some l) :
    Counted ins d0 l := by
  refine exec_inv (fun t l => (∀ id v, Ev.back id v ∈ t → 0 ≤ id) → Counted ins d0 l) (Log.fresh d0)
    (fun _ => Or.inl ⟨rfl, rfl⟩) (fun t e l1 l2 h1 h2 h3 => ?_) t l h hid
  exact counted_step hin hf (h1 (fun id v hm => h3 id v (List.mem_append_left _ hm))) e
    (fun id v he => h3 id v (by rw [he]; simp)) h2

/-! ### Timely results -/

theorem Spec.Timely.prefix_ {m : Nat} {c : Nat → K} {t : List (Ev K)} {e : Ev K}
    (h : Timely m c (t ++ [e])) : Timely m c t := by
  intro pre e' post ht
  exact h pre e' (post ++ [e]) (by rw [ht]; simp)

theorem Spec.Timely.mem_lt {m : Nat} {c : Nat → K} {t : List (Ev K)} (h : Timely m c t) {k : Nat} {v : K}
    (hb : Ev.back (k : Int) v ∈ t) : k < sentIn t := by
  obtain ⟨pre, post, hpp⟩ := List.append_of_mem hb
  obtain ⟨k', h1, _, hk, _⟩ := h pre _ post hpp
  rw [hpp, sentIn_append]
  have : k = k' := by exact_mod_cast h1
  omega

theorem Spec.Timely.nonneg {m : Nat} {c : Nat → K} {t : List (Ev K)} (h : Timely m c t) :
    ∀ id v, Ev.back id v ∈ t → 0 ≤ id := by
  intro id v hb
  obtain ⟨pre, post, hpp⟩ := List.append_of_mem hb
  obtain ⟨k, h1, _⟩ := h pre _ post hpp
  omega

/-- Every epoch but the first starts from the state the one before it leads to. -/
def Steps (cfg : Config K) (ins : Inputs K) (c : Nat → K) (l : Log K) : Prop :=
  ∀ e, (e + 1) * (2 * ins.dim + 1) < l.runs → ∀ i, i < ins.dim →
    l.sent ((e + 1) * (2 * ins.dim + 1)) i =
      next ins.dim cfg.gain (lows ins) (highs ins) (l.sent (e * (2 * ins.dim + 1)))
        (c (e * (2 * ins.dim + 1))) (fun p => c (e * (2 * ins.dim + 1) + 1 + p)) i

/-- The costs known in the epoch in progress. -/
structure Good (ins : Inputs K) (c : Nat → K) (t : List (Ev K)) (l : Log K) (e r : Nat) : Prop where
  gcost : Ev.back ((e * (2 * ins.dim + 1) : Nat) : Int) (c (e * (2 * ins.dim + 1))) ∈ t →
    l.desc.glob.cost = c (e * (2 * ins.dim + 1))
  pcost : ∀ p, p < r →
    Ev.back ((e * (2 * ins.dim + 1) + 1 + p : Nat) : Int) (c (e * (2 * ins.dim + 1) + 1 + p)) ∈ t →
    Probed (c (e * (2 * ins.dim + 1))) (c (e * (2 * ins.dim + 1) + 1 + p)) (l.desc.probes p)

/-- `propagateState` with all results of the epoch. -/
theorem propagate_next {c : Nat → K} {t : List (Ev K)} {l : Log K} {e r : Nat} (hin : Ranged ins)
    (ha : At ins l e r) (hg : Good ins c t l e r) (hr : r = 2 * ins.dim)
    (hb : ∀ k, k < l.runs → Ev.back (k : Int) (c k) ∈ t) {i : Nat} (hi : i < ins.dim) :
    (propagate cfg ins l.desc).glob.state i =
      next ins.dim cfg.gain (lows ins) (highs ins) (l.sent (e * (2 * ins.dim + 1)))
        (c (e * (2 * ins.dim + 1))) (fun p => c (e * (2 * ins.dim + 1) + 1 + p)) i := by
  have hc := hg.gcost (hb _ (by rw [ha.runs]; omega))
  have p1 := hg.pcost (2 * i) (by omega) (hb _ (by rw [ha.runs]; omega))
  have p2 := hg.pcost (2 * i + 1) (by omega) (hb _ (by rw [ha.runs]; omega))
  have s1 := (ha.pstate (by omega) (2 * i) (by omega)).2
  have s2 := (ha.pstate (by omega) (2 * i + 1) (by omega)).2
  unfold trialOf at s1 s2
  rw [show 2 * i / 2 = i by omega, show 2 * i % 2 = 0 by omega, Function.update_self, if_pos rfl] at s1
  rw [show (2 * i + 1) / 2 = i by omega, show (2 * i + 1) % 2 = 1 by omega, Function.update_self,
    if_neg (by decide)] at s2
  have hm := deltaState_move hc p1 p2 s1 s2
  unfold propagate next
  simp only [if_pos hi]
  rw [limitRange_clip (hin.2 i hi), hm, ha.gstate]
  unfold lows highs
  congr 2
  ring

/-- What is known with timely results. -/
def State (cfg : Config K) (ins : Inputs K) (d0 : Desc K) (c : Nat → K) (t : List (Ev K)) (l : Log K) : Prop :=
  (l.runs = 0 ∧ l.desc = d0) ∨
    (Trials ins l ∧ Steps cfg ins c l ∧ l.sent 0 = d0.glob.state ∧ ∃ e r, At ins l e r ∧ Good ins c t l e r)

theorem state_run {d0 : Desc K} {c : Nat → K} {t : List (Ev K)} {l l' : Log K} (hin : Ranged ins)
    (hf : Fresh d0) (ht : sentIn t = l.runs) (htm : Timely (2 * ins.dim + 1) c (t ++ [.run]))
    (hs : State cfg ins d0 c t l) (h : step cfg ins l .run = some l') :
    State cfg ins d0 c (t ++ [.run]) l' := by
  have hlt : ∀ k v, Ev.back ((k : Nat) : Int) v ∈ t ++ [.run] → k < l.runs := by
    intro k v hb
    rw [← ht]
    refine htm.prefix_.mem_lt (v := v) ?_
    rcases List.mem_append.1 hb with hb | hb
    · exact hb
    · simp at hb
  have hmem : ∀ k v, Ev.back ((k : Nat) : Int) v ∈ t ++ [.run] → Ev.back ((k : Nat) : Int) v ∈ t := by
    intro k v hb
    rcases List.mem_append.1 hb with hb | hb
    · exact hb
    · simp at hb
  have hruns : l'.runs = l.runs + 1 := by
    simp only [step, Option.some.injEq] at h; rw [← h]
  rcases hs with ⟨h0, hd⟩ | ⟨htr, hst, hz, e, r, ha, hg⟩
  · obtain ⟨a1, a2, a3⟩ := at_first h0 (hd ▸ hf) h
    refine Or.inr ⟨a2, fun e he => ?_, by rw [a3, hd], 0, 0, a1, ⟨fun hb => ?_, fun p hp => by omega⟩⟩
    · rw [hruns, h0] at he
      have : 0 < (e + 1) * (2 * ins.dim + 1) := Nat.mul_pos (by omega) (by omega)
      omega
    · have := hlt _ _ hb
      omega
  · have hpos : 0 < l.runs := by rw [ha.runs]; omega
    by_cases hr : r < 2 * ins.dim
    · obtain ⟨a1, a2, a3, a4, a5, a6⟩ := at_same hin ha htr hr h
      refine Or.inr ⟨a2, fun e' he => ?_, by rw [a3 0 hpos, hz], e, r + 1, a1, ⟨fun hb => ?_,
        fun p hp hb => ?_⟩⟩
      · have hlt' : (e' + 1) * (2 * ins.dim + 1) < l.runs := by
          rcases Nat.lt_or_ge ((e' + 1) * (2 * ins.dim + 1)) l.runs with h1 | h1
          · exact h1
          · exfalso
            have heq : (e' + 1) * (2 * ins.dim + 1) + 0 = e * (2 * ins.dim + 1) + (r + 1) := by
              have := ha.runs; omega
            have h2 := congrArg (· % (2 * ins.dim + 1)) heq
            simp only [Nat.mul_add_mod_self_right, Nat.zero_mod] at h2
            rw [Nat.mod_eq_of_lt (by omega)] at h2
            omega
        rw [a3 _ hlt', a3 _ (lt_of_le_of_lt (Nat.mul_le_mul_right _ (Nat.le_succ e')) hlt')]
        exact hst e' hlt'
      · rw [a4]; exact hg.gcost (hmem _ _ hb)
      · have hpr : p < r := by
          have := hlt _ _ hb
          rw [ha.runs] at this
          omega
        have hp := hg.pcost p hpr (hmem _ _ hb)
        unfold Probed at hp ⊢
        rw [(a5 p).1, (a5 p).2, a6 (by omega) p]
        exact hp
    · have hr' : r = 2 * ins.dim := by have := ha.le; omega
      obtain ⟨a1, a2, a3, a4⟩ := at_new hin ha htr hr' h
      have hm : (e + 1) * (2 * ins.dim + 1) = l.runs := by rw [ha.runs, hr']; ring
      have hb : ∀ k, k < l.runs → Ev.back (k : Int) (c k) ∈ t := by
        have := htm t .run [] rfl
        simp only at this
        rw [ht] at this
        exact this ⟨e + 1, by rw [← hm]; ring⟩
      refine Or.inr ⟨a2, fun e' he i hi => ?_, by rw [a3 0 hpos, hz], e + 1, 0, a1, ⟨fun hb' => ?_,
        fun p hp => by omega⟩⟩
      · rcases Nat.lt_or_ge ((e' + 1) * (2 * ins.dim + 1)) l.runs with hlt' | hge
        · rw [a3 _ hlt', a3 _ (lt_of_le_of_lt (Nat.mul_le_mul_right _ (Nat.le_succ e')) hlt')]
          exact hst e' hlt' i hi
        · have heq : (e' + 1) * (2 * ins.dim + 1) = (e + 1) * (2 * ins.dim + 1) := by omega
          have he' : e' = e := by
            have := Nat.eq_of_mul_eq_mul_right (by omega) heq
            omega
          subst he'
          rw [a4, a3 (e' * (2 * ins.dim + 1)) (by rw [ha.runs]; omega)]
          exact propagate_next hin ha hg hr' hb hi
      · have := hlt _ _ hb'
        omega

theorem state_back {d0 : Desc K} {c : Nat → K} {t : List (Ev K)} {l : Log K}
    (ht : sentIn t = l.runs) {id : Int} {v : K}
    (htm : Timely (2 * ins.dim + 1) c (t ++ [.back id v]))
    (hs : State cfg ins d0 c t l) :
    ∃ l', step cfg ins l (.back id v) = some l' ∧ State cfg ins d0 c (t ++ [.back id v]) l' := by
  obtain ⟨k, rfl, rfl, hk, hke, hfirst⟩ := htm t _ [] rfl
  rw [ht] at hk hke
  rcases hs with ⟨h0, hd⟩ | ⟨htr, hst, hz, e, r, ha, hg⟩
  · omega
  · have hle := ha.le
    have he : (l.runs - 1) / (2 * ins.dim + 1) = e := by
      rw [ha.runs, Nat.add_sub_cancel, Nat.mul_comm, Nat.mul_add_div (by omega),
        Nat.div_eq_of_lt (by omega), Nat.add_zero]
    rw [he] at hke
    have hk2 : k = e * (2 * ins.dim + 1) + k % (2 * ins.dim + 1) := by
      have := Nat.div_add_mod k (2 * ins.dim + 1)
      rw [hke, Nat.mul_comm] at this
      exact this.symm
    rw [hke] at hfirst
    have hmod := Nat.mod_lt k (show 0 < 2 * ins.dim + 1 by omega)
    obtain ⟨q, hq⟩ : ∃ q, q = k % (2 * ins.dim + 1) := ⟨_, rfl⟩
    rw [← hq] at hk2 hmod hfirst
    rw [ha.runs] at hk
    have hqr : q ≤ r := by omega
    have fin : ∀ l', step cfg ins l (.back (k : Int) (c k)) = some l' →
        Good ins c (t ++ [.back (k : Int) (c k)]) l' e r →
        ∃ l', step cfg ins l (.back (k : Int) (c k)) = some l' ∧
          State cfg ins d0 c (t ++ [.back (k : Int) (c k)]) l' := by
      intro l' h hg'
      obtain ⟨b1, b2, _⟩ := back_some h
      refine ⟨l', h, Or.inr ⟨trials_back h htr, ?_, by rw [b2, hz], e, r, at_back_at h ha, hg'⟩⟩
      intro e' he' i hi
      rw [b1] at he'
      rw [b2]
      exact hst e' he' i hi
    rcases Nat.eq_zero_or_pos q with hq0 | hq0
    · have hkg : k = e * (2 * ins.dim + 1) := by omega
      have hno : ∀ p, p < 2 * ins.dim → (l.desc.probes p).runId ≠ (k : Int) := by
        intro p hp
        rcases Nat.lt_or_ge p r with h1 | h1
        · rw [ha.pid p h1]
          exact_mod_cast (by omega : e * (2 * ins.dim + 1) + 1 + p ≠ k)
        · have := ha.pid_lt h1 hp
          rw [← hkg] at this
          omega
      have hst' : step cfg ins l (.back (k : Int) (c k)) =
          some { l with desc := { l.desc with glob := { l.desc.glob with grad := 0, cost := c k } } } := by
        simp only [step]
        rw [assign_glob (by rw [ha.gid, hkg]) hno]
      refine fin _ hst' ⟨fun _ => by rw [hkg], fun p hp hb => ?_⟩
      refine hg.pcost p hp ?_
      rcases List.mem_append.1 hb with hb | hb
      · exact hb
      · exfalso
        simp only [List.mem_singleton, Ev.back.injEq] at hb
        have h1 : e * (2 * ins.dim + 1) + 1 + p = k := by exact_mod_cast hb.1
        omega
    · obtain ⟨p, rfl⟩ : ∃ p, q = p + 1 := ⟨q - 1, by omega⟩
      have hkp : k = e * (2 * ins.dim + 1) + 1 + p := by omega
      have hgc : l.desc.glob.cost = c (e * (2 * ins.dim + 1)) := hg.gcost (hfirst (by omega))
      have hno : ∀ q, q < p → (l.desc.probes q).runId ≠ (k : Int) := by
        intro q hq
        rw [ha.pid q (by omega)]
        exact_mod_cast (by omega : e * (2 * ins.dim + 1) + 1 + q ≠ k)
      have has := assign_probe (ins := ins) (cost := c k) (id := (k : Int)) (d := l.desc) (p := p) (by omega)
        (by rw [ha.pid p (by omega), hkp]) hno
      obtain ⟨d', hd'⟩ : ∃ d', assignCost ins (c k) (k : Int) l.desc = some d' := ⟨_, has⟩
      have hst' : step cfg ins l (.back (k : Int) (c k)) = some { l with desc := d' } := by
        simp only [step, hd']
      rw [hd', Option.some.injEq] at has
      subst has
      refine fin _ hst' ⟨fun hb => ?_, fun p' hp' hb => ?_⟩
      · exact hgc
      · by_cases hpp : p' = p
        · subst hpp
          unfold Probed
          simp only [if_true, hgc, ← hkp, true_and]
        · simp only [if_neg hpp]
          refine hg.pcost p' hp' ?_
          rcases List.mem_append.1 hb with hb | hb
          · exact hb
          · exfalso
            simp only [List.mem_singleton, Ev.back.injEq] at hb
            have h1 : e * (2 * ins.dim + 1) + 1 + p' = k := by exact_mod_cast hb.1
            omega

/-- With timely results nothing is thrown and everything known is kept. -/
theorem timely_exec {d0 : Desc K} {c : Nat → K} (hin : Ranged ins) (hf : Fresh d0) (t : List (Ev K))
    (htm : Timely (2 * ins.dim + 1) c t) :
    ∃ l, exec cfg ins (Log.fresh d0) t = some l ∧ State cfg ins d0 c t l := by
  induction t using List.reverseRecOn with
  | nil => exact ⟨Log.fresh d0, rfl, Or.inl ⟨rfl, rfl⟩⟩
  | append_singleton t e ih =>
    obtain ⟨l, hl, hs⟩ := ih htm.prefix_
    have hruns : sentIn t = l.runs := by
      have := runs_eq _ t l hl
      simp only [Log.fresh] at this
      omega
    cases e with
    | run =>
      have : ∃ l', step cfg ins l .run = some l' := ⟨_, rfl⟩
      obtain ⟨l', h'⟩ := this
      exact ⟨l', by rw [exec_snoc, hl]; exact h', state_run hin hf hruns htm hs h'⟩
    | back id v =>
      obtain ⟨l', h', hs'⟩ := state_back hruns htm hs
      exact ⟨l', by rw [exec_snoc, hl]; exact h', hs'⟩

/-! ### What results are accepted -/

/-- A result is accepted exactly if it is that of one of the last `2 n + 1` runs. -/
theorem accept_iff {l : Log K} {e r : Nat} (ha : At ins l e r) (k : Nat) (v : K) :
    (∃ l', step cfg ins l (.back (k : Int) v) = some l') ↔ k < l.runs ∧ l.runs ≤ k + (2 * ins.dim + 1) := by
  have hle := ha.le
  have hid : (∃ l', step cfg ins l (.back (k : Int) v) = some l') ↔
      l.desc.glob.runId = (k : Int) ∨ ∃ p, p < 2 * ins.dim ∧ (l.desc.probes p).runId = (k : Int) := by
    constructor
    · rintro ⟨l', h⟩
      by_contra hn
      push Not at hn
      have := assign_none (v := v) (ins := ins) hn.1 hn.2
      simp only [step, this] at h
      exact absurd h (by simp)
    · intro h
      cases has : assignCost ins v (k : Int) l.desc with
      | some d => exact ⟨{ l with desc := d }, by simp only [step, has]⟩
      | none =>
        exfalso
        unfold assignCost at has
        cases hf : (List.range (2 * ins.dim)).find? (fun p => decide ((k : Int) = (l.desc.probes p).runId)) with
        | some p => rw [hf] at has; exact absurd has (by simp)
        | none =>
          rw [hf] at has
          simp only at has
          split_ifs at has with hg
          rcases h with h | ⟨p, hp, h⟩
          · exact hg h.symm
          · rw [List.find?_eq_none] at hf
            have := hf p (List.mem_range.2 hp)
            simp only [decide_eq_true_eq] at this
            exact this h.symm
  rw [hid, ha.runs, ha.gid]
  constructor
  · rintro (h | ⟨p, hp, h⟩)
    · have : e * (2 * ins.dim + 1) = k := by exact_mod_cast h
      omega
    · rcases Nat.lt_or_ge p r with h1 | h1
      · rw [ha.pid p h1] at h
        have : e * (2 * ins.dim + 1) + 1 + p = k := by exact_mod_cast h
        omega
      · rcases ha.pidGe p h1 hp with ⟨_, h4⟩ | ⟨_, h4⟩
        · omega
        · rw [h] at h4
          have : k + (2 * ins.dim + 1) = e * (2 * ins.dim + 1) + 1 + p := by exact_mod_cast h4
          omega
  · rintro ⟨h1, h2⟩
    rcases Nat.lt_trichotomy k (e * (2 * ins.dim + 1)) with hk | hk | hk
    · right
      have he : 0 < e := by
        rcases Nat.eq_zero_or_pos e with h0 | h0
        · subst h0; omega
        · exact h0
      obtain ⟨p, hp⟩ : ∃ p, k + (2 * ins.dim + 1) = e * (2 * ins.dim + 1) + 1 + p :=
        ⟨k + (2 * ins.dim + 1) - (e * (2 * ins.dim + 1) + 1), by omega⟩
      refine ⟨p, by omega, ?_⟩
      rcases ha.pidGe p (by omega) (by omega) with ⟨h3, _⟩ | ⟨_, h4⟩
      · omega
      · rw [← hp] at h4
        push_cast at h4
        omega
    · left; exact_mod_cast hk.symm
    · right
      refine ⟨k - (e * (2 * ins.dim + 1) + 1), by omega, ?_⟩
      rw [ha.pid _ (by omega)]
      congr 1
      omega

end Gunns.Optim.Descent
