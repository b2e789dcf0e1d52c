import Verif.Optim.SwarmLemmas

set_option linter.unusedSectionVars false

namespace Gunns.Optim

open Spec

variable {K : Type _} [Field K] [LinearOrder K] [IsStrictOrderedRing K]
variable {cfg : Config K} {ins : Inputs K}

/-- A swarm as `initialize` leaves it, as far as counters and run ids go. -/
def Fresh (s : Swarm K) : Prop :=
  s.globalRun = -1 ∧ s.run = -1 ∧ s.epoch = 1 ∧ ∀ i, (s.parts i).cur.runId = 0

/-- Run `r` of epoch `e` has been sent out last. -/
structure At (cfg : Config K) (l : Log K) (e r : Nat) : Prop where
  lt : r < cfg.n
  runs : l.runs = e * cfg.n + r + 1
  globalRun : l.swarm.globalRun = ((e * cfg.n + r : Nat) : Int)
  run : l.swarm.run = (r : Int)
  epoch : l.swarm.epoch = ((e + 1 : Nat) : Int)
  active : l.swarm.active = r
  ids : ∀ i, i ≤ r → (l.swarm.parts i).cur.runId = ((e * cfg.n + i : Nat) : Int)
  idsGt : ∀ i, r < i → i < cfg.n → (l.swarm.parts i).cur.runId =
    if e = 0 then 0 else (((e - 1) * cfg.n + i : Nat) : Int)

/-- Nothing has been sent out, or some run has been sent out last. -/
def Counted (cfg : Config K) (l : Log K) : Prop :=
  (l.runs = 0 ∧ Fresh l.swarm) ∨ ∃ e r, At cfg l e r

/-- The run sent out after nothing. -/
theorem at_first {l : Log K} (hn : 0 < cfg.n) (h0 : l.runs = 0) (hf : Fresh l.swarm)
    (rnd : Nat → Nat → K × K) (l' : Log K) (h : step cfg ins l (.run rnd) = some l') : At cfg l' 0 0 := by
  obtain ⟨f1, f2, f3, f4⟩ := hf
  have hr : l.swarm.run + 1 < (cfg.n : Int) := by rw [f2]; omega
  obtain ⟨g1, g2, g3, g4, g5, g6, g7, g8⟩ := dispatch_same (ins := ins) rnd l.swarm hr
  simp only [step, Option.some.injEq] at h
  subst h
  have hz : (l.swarm.run + 1).toNat = 0 := by rw [f2]; rfl
  refine ⟨hn, by simp [h0], by rw [g2, f1]; simp, by rw [g3, f2]; rfl, by rw [g4, f3]; rfl,
    by rw [g1, hz], fun i hi => ?_, fun i hi _ => ?_⟩
  · have : i = 0 := by omega
    subst this
    rw [(g7 0).2.2.2.2, hz, if_pos rfl, f1]; simp
  · rw [(g7 i).2.2.2.2, hz, if_neg (by omega), f4]; simp

/-- The run sent out next in an epoch. -/
theorem at_same {l : Log K} {e r : Nat} (ha : At cfg l e r) (hr : r + 1 < cfg.n)
    (rnd : Nat → Nat → K × K) (l' : Log K) (h : step cfg ins l (.run rnd) = some l') :
    At cfg l' e (r + 1) := by
  have hr' : l.swarm.run + 1 < (cfg.n : Int) := by rw [ha.run]; omega
  obtain ⟨g1, g2, g3, g4, g5, g6, g7, g8⟩ := dispatch_same (ins := ins) rnd l.swarm hr'
  simp only [step, Option.some.injEq] at h
  subst h
  have hz : (l.swarm.run + 1).toNat = r + 1 := by rw [ha.run]; omega
  refine ⟨hr, by simp only [ha.runs]; omega, by rw [g2, ha.globalRun]; push_cast; ring,
    by rw [g3, ha.run]; push_cast; ring, by rw [g4, ha.epoch], by rw [g1, hz], fun i hi => ?_,
    fun i hi hin => ?_⟩
  · rw [(g7 i).2.2.2.2, hz]
    by_cases hi2 : i = r + 1
    · rw [if_pos hi2, ha.globalRun, hi2]; push_cast; ring
    · rw [if_neg hi2, ha.ids i (by omega)]
  · rw [(g7 i).2.2.2.2, hz, if_neg (by omega), ha.idsGt i (by omega) hin]

/-- The first run of the next epoch. -/
theorem at_new {l : Log K} {e r : Nat} (ha : At cfg l e r) (hr : r + 1 = cfg.n)
    (rnd : Nat → Nat → K × K) (l' : Log K) (h : step cfg ins l (.run rnd) = some l') :
    At cfg l' (e + 1) 0 := by
  have hr' : (cfg.n : Int) ≤ l.swarm.run + 1 := by rw [ha.run]; omega
  obtain ⟨g1, g2, g3, g4, g5, g6, g7, g8⟩ := dispatch_new (ins := ins) rnd l.swarm hr'
  simp only [step, Option.some.injEq] at h
  subst h
  have hm : (e + 1) * cfg.n = e * cfg.n + (r + 1) := by rw [hr]; ring
  refine ⟨by omega, by simp only [ha.runs, hm]; omega, by rw [g2, ha.globalRun, hm]; push_cast; ring,
    by rw [g3]; rfl, by rw [g4, ha.epoch]; push_cast; ring, g1, fun i hi => ?_, fun i hi hin => ?_⟩
  · have : i = 0 := by omega
    subst this
    rw [(g7 0).2.2.2.2, if_pos rfl, ha.globalRun, hm]; push_cast; ring
  · rw [(g7 i).2.2.2.2, if_neg (by omega), ha.ids i (by omega), if_neg (by omega)]
    rfl

/-- A result coming back moves no counter. -/
theorem at_back {l : Log K} {id : Int} {v : K} {l' : Log K}
    (h : step cfg ins l (.back id v) = some l') :
    ∃ i, i < cfg.n ∧ (l.swarm.parts i).cur.runId = id ∧
      (∀ k, k < i → (l.swarm.parts k).cur.runId ≠ id) ∧
      l' = { l with swarm := { l.swarm with
        parts := fun k =>
          if k = i then
            { l.swarm.parts i with cur := { (l.swarm.parts i).cur with cost := v } }
          else l.swarm.parts k } } := by
  simp only [step] at h
  cases ha : assignCost cfg v id l.swarm with
  | none => rw [ha] at h; exact absurd h (by simp)
  | some s =>
    rw [ha] at h
    obtain ⟨i, h1, h2, h3, h4⟩ := assign_some ha
    exact ⟨i, h1, h2, h3, by rw [← Option.some.inj h, h4]⟩

theorem back_parts {l : Log K} {id : Int} {v : K} {l' : Log K}
    (h : step cfg ins l (.back id v) = some l') (k : Nat) :
    (l'.swarm.parts k).cur.runId = (l.swarm.parts k).cur.runId ∧
    (l'.swarm.parts k).cur.pos = (l.swarm.parts k).cur.pos ∧
    (l'.swarm.parts k).vel = (l.swarm.parts k).vel ∧
    (l'.swarm.parts k).best = (l.swarm.parts k).best := by
  obtain ⟨i, _, _, _, h4⟩ := at_back h
  rw [h4]
  by_cases hk : k = i
  · subst hk; simp
  · simp only [if_neg hk, and_self]

theorem back_fields {l : Log K} {id : Int} {v : K} {l' : Log K}
    (h : step cfg ins l (.back id v) = some l') :
    l'.runs = l.runs ∧ l'.sent = l.sent ∧ l'.swarm.best = l.swarm.best ∧
    l'.swarm.globalRun = l.swarm.globalRun ∧ l'.swarm.run = l.swarm.run ∧
    l'.swarm.epoch = l.swarm.epoch ∧ l'.swarm.active = l.swarm.active ∧ l'.swarm.maxV = l.swarm.maxV ∧
    l'.swarm.env = l.swarm.env := by
  obtain ⟨i, _, _, _, h4⟩ := at_back h
  rw [h4]
  exact ⟨rfl, rfl, rfl, rfl, rfl, rfl, rfl, rfl, rfl⟩

theorem at_back_at {l : Log K} {id : Int} {v : K} {l' : Log K} {e r : Nat}
    (h : step cfg ins l (.back id v) = some l') (ha : At cfg l e r) : At cfg l' e r := by
  obtain ⟨h1, h2, h3, h4, h5, h6, h7, h8, h9⟩ := back_fields h
  exact ⟨ha.lt, by rw [h1, ha.runs], by rw [h4, ha.globalRun], by rw [h5, ha.run], by rw [h6, ha.epoch],
    by rw [h7, ha.active], fun i hi => by rw [(back_parts h i).1, ha.ids i hi],
    fun i hi hn => by rw [(back_parts h i).1, ha.idsGt i hi hn]⟩

theorem fresh_back {l : Log K} {id : Int} {v : K} {l' : Log K}
    (h : step cfg ins l (.back id v) = some l') (hf : Fresh l.swarm) : Fresh l'.swarm := by
  obtain ⟨h1, h2, h3, h4, h5, h6, h7, h8, h9⟩ := back_fields h
  obtain ⟨f1, f2, f3, f4⟩ := hf
  exact ⟨by rw [h4, f1], by rw [h5, f2], by rw [h6, f3], fun i => by rw [(back_parts h i).1, f4]⟩

theorem counted_step {l l' : Log K} (hn : 0 < cfg.n) (hc : Counted cfg l) (e : Ev K)
    (h : step cfg ins l e = some l') : Counted cfg l' := by
  cases e with
  | run rnd =>
    rcases hc with ⟨h0, hf⟩ | ⟨e, r, ha⟩
    · exact Or.inr ⟨0, 0, at_first hn h0 hf rnd l' h⟩
    · by_cases hr : r + 1 < cfg.n
      · exact Or.inr ⟨e, r + 1, at_same ha hr rnd l' h⟩
      · exact Or.inr ⟨e + 1, 0, at_new ha (by have := ha.lt; omega) rnd l' h⟩
  | back id v =>
    rcases hc with ⟨h0, hf⟩ | ⟨e, r, ha⟩
    · exact Or.inl ⟨by rw [(back_fields h).1, h0], fresh_back h hf⟩
    · exact Or.inr ⟨e, r, at_back_at h ha⟩

theorem counted_exec {s : Swarm K} (hn : 0 < cfg.n) (hf : Fresh s) (t : List (Ev K)) (l : Log K)
    (h : exec cfg ins (Log.fresh s) t = some l) : Counted cfg l :=
  exec_inv (fun _ l => Counted cfg l) (Log.fresh s) (Or.inl ⟨rfl, hf⟩)
    (fun _ e _ _ h1 h2 => counted_step hn h1 e h2) t l h

/-! ### Timely results -/

theorem Spec.Timely.prefix_ {n : Nat} {c : Nat → K} {t : List (Ev K)} {e : Ev K} (h : Timely n c (t ++ [e])) :
    Timely n c t := by
  intro pre e' post ht
  exact h pre e' (post ++ [e]) (by rw [ht]; simp)

/-- The states sent out, the costs returned and the best points of the epochs that are over. -/
structure Good (cfg : Config K) (s0 : Swarm K) (c : Nat → K) (t : List (Ev K)) (l : Log K) (e r : Nat) :
    Prop where
  pos : ∀ i, i ≤ r → (l.swarm.parts i).cur.pos = l.sent (e * cfg.n + i)
  cost : ∀ i, i ≤ r → Ev.back ((e * cfg.n + i : Nat) : Int) (c (e * cfg.n + i)) ∈ t →
    (l.swarm.parts i).cur.cost = c (e * cfg.n + i)
  best : BestOf s0.best l.sent c (fun _ => True) (e * cfg.n) l.swarm.best
  pbest : ∀ i, i < cfg.n → BestOf (s0.parts i).best l.sent c (fun k => k % cfg.n = i) (e * cfg.n)
    (l.swarm.parts i).best

theorem Spec.BestOf.skips {b0 b : Point K} {x : Nat → Nat → K} {c : Nat → K} {sel : Nat → Prop} {m : Nat}
    (h : BestOf b0 x c sel m b) (d : Nat) (hs : ∀ k, m ≤ k → k < m + d → ¬ sel k) :
    BestOf b0 x c sel (m + d) b := by
  induction d with
  | zero => exact h
  | succ d ih => exact (ih (fun k h1 h2 => hs k h1 (by omega))).skip (hs (m + d) (by omega) (by omega))

/-- At the end of an epoch with all results back, `updateBest` finds the best of all runs so far. -/
theorem good_updateBest {s0 : Swarm K} {c : Nat → K} {t : List (Ev K)} {l : Log K} {e r : Nat}
    (ha : At cfg l e r) (hg : Good cfg s0 c t l e r) (hr : r + 1 = cfg.n)
    (hb : ∀ k, k < l.runs → Ev.back (k : Int) (c k) ∈ t) :
    BestOf s0.best l.sent c (fun _ => True) ((e + 1) * cfg.n) (updateBest cfg l.swarm).best ∧
    ∀ i, i < cfg.n → BestOf (s0.parts i).best l.sent c (fun k => k % cfg.n = i) ((e + 1) * cfg.n)
      ((updateBest cfg l.swarm).parts i).best := by
  have hcur : ∀ i, i < cfg.n → (l.swarm.parts i).cur =
      ⟨l.sent (e * cfg.n + i), c (e * cfg.n + i), ((e * cfg.n + i : Nat) : Int)⟩ := by
    intro i hi
    have h1 := hg.pos i (by omega)
    have h2 := hg.cost i (by omega) (hb _ (by rw [ha.runs]; omega))
    have h3 := ha.ids i (by omega)
    rw [← h1, ← h2, ← h3]
  have hm : (e + 1) * cfg.n = e * cfg.n + cfg.n := by ring
  constructor
  · have : ∀ d, d ≤ cfg.n → BestOf s0.best l.sent c (fun _ => True) (e * cfg.n + d)
        (loop bestStep d l.swarm).best := by
      intro d
      induction d with
      | zero => intro _; exact hg.best
      | succ d ih =>
        intro hd
        rw [loop_best_global]
        exact (ih (by omega)).take trivial (hcur d (by omega))
    rw [hm]
    exact this cfg.n (le_refl _)
  · intro i hi
    have h1 := ((loop_best l.swarm cfg.n).1 i).2.2
    rw [if_pos hi] at h1
    unfold updateBest
    rw [h1, hm]
    have hmod : ∀ d, d < cfg.n → (e * cfg.n + d) % cfg.n = d := by
      intro d hd
      rw [Nat.add_comm, Nat.add_mul_mod_self_right, Nat.mod_eq_of_lt hd]
    have h2 : BestOf (s0.parts i).best l.sent c (fun k => k % cfg.n = i) (e * cfg.n + i)
        (l.swarm.parts i).best :=
      (hg.pbest i hi).skips i (fun k hk1 hk2 hsel => by
        obtain ⟨d, rfl⟩ := Nat.exists_eq_add_of_le hk1
        rw [hmod d (by omega)] at hsel
        omega)
    have h3 := h2.take (hmod i hi) (hcur i hi)
    have h4 := h3.skips (cfg.n - (i + 1)) (fun k hk1 hk2 hsel => by
        obtain ⟨d, rfl⟩ := Nat.exists_eq_add_of_le (show e * cfg.n ≤ k by omega)
        rw [hmod d (by omega)] at hsel
        omega)
    have h5 : e * cfg.n + i + 1 + (cfg.n - (i + 1)) = e * cfg.n + cfg.n := by omega
    rw [h5] at h4
    exact h4

/-- `Counted` with what is known about states, costs and best points. -/
def State (cfg : Config K) (s0 : Swarm K) (c : Nat → K) (t : List (Ev K)) (l : Log K) : Prop :=
  (l.runs = 0 ∧ l.swarm = s0) ∨ ∃ e r, At cfg l e r ∧ Good cfg s0 c t l e r

theorem good_first {s0 : Swarm K} {c : Nat → K} {t : List (Ev K)} {l : Log K} (hn : 0 < cfg.n)
    (hf : Fresh s0) (ht : sentIn t = 0) (htm : Timely cfg.n c t) (h0 : l.runs = 0) (hs : l.swarm = s0)
    (rnd : Nat → Nat → K × K) (l' : Log K) (h : step cfg ins l (.run rnd) = some l') :
    Good cfg s0 c (t ++ [.run rnd]) l' 0 0 := by
  have hf' : Fresh l.swarm := hs ▸ hf
  have ha := at_first (ins := ins) hn h0 hf' rnd l' h
  have hr : l.swarm.run + 1 < (cfg.n : Int) := by rw [hf'.2.1]; omega
  obtain ⟨g1, g2, g3, g4, g5, g6, g7, g8⟩ := dispatch_same (ins := ins) rnd l.swarm hr
  simp only [step, Option.some.injEq] at h
  have hz : (l.swarm.run + 1).toNat = 0 := by rw [hf'.2.1]; rfl
  subst h
  refine ⟨fun i hi => ?_, fun i hi hb => ?_, ?_, fun i hi => ?_⟩
  · have : i = 0 := by omega
    subst this
    simp only [h0, Nat.zero_mul, Nat.add_zero, if_true]
    unfold getState
    rw [g1, hz]
  · exfalso
    rcases List.mem_append.1 hb with hb | hb
    · obtain ⟨pre, post, hpp⟩ := List.append_of_mem hb
      obtain ⟨k, _, _, hk, _⟩ := htm pre _ post hpp
      rw [hpp, sentIn_append] at ht
      omega
    · simp at hb
  · rw [Nat.zero_mul]
    have : (dispatch cfg ins rnd l.swarm).best = s0.best := by rw [g6, hs]
    simp only [this]
    exact BestOf.zero _ _ _ _
  · rw [Nat.zero_mul]
    have : ((dispatch cfg ins rnd l.swarm).parts i).best = (s0.parts i).best := by rw [(g7 i).1, hs]
    simp only [this]
    exact BestOf.zero _ _ _ _

theorem good_same {s0 : Swarm K} {c : Nat → K} {t : List (Ev K)} {l : Log K} {e r : Nat}
    (ht : sentIn t = l.runs) (htm : Timely cfg.n c t) (ha : At cfg l e r) (hg : Good cfg s0 c t l e r)
    (hr : r + 1 < cfg.n) (rnd : Nat → Nat → K × K) (l' : Log K)
    (h : step cfg ins l (.run rnd) = some l') : Good cfg s0 c (t ++ [.run rnd]) l' e (r + 1) := by
  have hr' : l.swarm.run + 1 < (cfg.n : Int) := by rw [ha.run]; omega
  obtain ⟨g1, g2, g3, g4, g5, g6, g7, g8⟩ := dispatch_same (ins := ins) rnd l.swarm hr'
  simp only [step, Option.some.injEq] at h
  have hz : (l.swarm.run + 1).toNat = r + 1 := by rw [ha.run]; omega
  subst h
  have hk : ∀ k, k < e * cfg.n → l.sent k =
      if k = l.runs then getState (dispatch cfg ins rnd l.swarm) else l.sent k := by
    intro k hk
    rw [if_neg (by rw [ha.runs]; omega)]
  refine ⟨fun i hi => ?_, fun i hi hb => ?_, ?_, fun i hi => ?_⟩
  · simp only [ha.runs]
    by_cases hi2 : i = r + 1
    · rw [if_pos (by omega)]
      unfold getState
      rw [g1, hz, hi2]
    · rw [if_neg (by omega), (g7 i).2.2.1, hg.pos i (by omega)]
  · have hb' : Ev.back ((e * cfg.n + i : Nat) : Int) (c (e * cfg.n + i)) ∈ t := by
      rcases List.mem_append.1 hb with hb | hb
      · exact hb
      · simp at hb
    have hi2 : i ≤ r := by
      obtain ⟨pre, post, hpp⟩ := List.append_of_mem hb'
      obtain ⟨k, h1, _, hk, _⟩ := htm pre _ post hpp
      rw [hpp, sentIn_append, ha.runs] at ht
      have : e * cfg.n + i = k := by exact_mod_cast h1
      omega
    rw [(g7 i).2.2.2.1, hg.cost i hi2 hb']
  · rw [show (dispatch cfg ins rnd l.swarm).best = l.swarm.best from g6]
    exact hg.best.congr hk
  · rw [show ((dispatch cfg ins rnd l.swarm).parts i).best = (l.swarm.parts i).best from (g7 i).1]
    exact (hg.pbest i hi).congr hk

theorem good_new {s0 : Swarm K} {c : Nat → K} {t : List (Ev K)} {l : Log K} {e r : Nat}
    (ht : sentIn t = l.runs) (htm : Timely cfg.n c t) (ha : At cfg l e r) (hg : Good cfg s0 c t l e r)
    (hr : r + 1 = cfg.n) (hb : ∀ k, k < l.runs → Ev.back (k : Int) (c k) ∈ t)
    (rnd : Nat → Nat → K × K) (l' : Log K)
    (h : step cfg ins l (.run rnd) = some l') : Good cfg s0 c (t ++ [.run rnd]) l' (e + 1) 0 := by
  have hr' : (cfg.n : Int) ≤ l.swarm.run + 1 := by rw [ha.run]; omega
  obtain ⟨g1, g2, g3, g4, g5, g6, g7, g8⟩ := dispatch_new (ins := ins) rnd l.swarm hr'
  obtain ⟨b1, b2⟩ := good_updateBest ha hg hr hb
  simp only [step, Option.some.injEq] at h
  subst h
  have hm : (e + 1) * cfg.n = e * cfg.n + r + 1 := by rw [← hr]; ring
  have hk : ∀ k, k < (e + 1) * cfg.n → l.sent k =
      if k = l.runs then getState (dispatch cfg ins rnd l.swarm) else l.sent k := by
    intro k hk
    rw [if_neg (by rw [ha.runs]; omega)]
  refine ⟨fun i hi => ?_, fun i hi hb => ?_, ?_, fun i hi => ?_⟩
  · have : i = 0 := by omega
    subst this
    simp only [ha.runs, hm, Nat.add_zero, if_true]
    unfold getState
    rw [g1]
  · exfalso
    have hb' : Ev.back (((e + 1) * cfg.n + i : Nat) : Int) (c ((e + 1) * cfg.n + i)) ∈ t := by
      rcases List.mem_append.1 hb with hb | hb
      · exact hb
      · simp at hb
    obtain ⟨pre, post, hpp⟩ := List.append_of_mem hb'
    obtain ⟨k, h1, _, hk, _⟩ := htm pre _ post hpp
    rw [hpp, sentIn_append, ha.runs] at ht
    have : (e + 1) * cfg.n + i = k := by exact_mod_cast h1
    omega
  · rw [show (dispatch cfg ins rnd l.swarm).best = (updateBest cfg l.swarm).best from g6]
    exact b1.congr hk
  · rw [show ((dispatch cfg ins rnd l.swarm).parts i).best = ((updateBest cfg l.swarm).parts i).best
      from (g7 i).1]
    exact (b2 i hi).congr hk

/-- With timely results nothing is thrown and the best points are right. -/
theorem timely_exec {s0 : Swarm K} {c : Nat → K} (hn : 0 < cfg.n) (hf : Fresh s0) (t : List (Ev K))
    (htm : Timely cfg.n c t) :
    ∃ l, exec cfg ins (Log.fresh s0) t = some l ∧ State cfg s0 c t l := by
  induction t using List.reverseRecOn with
  | nil => exact ⟨_, rfl, Or.inl ⟨rfl, rfl⟩⟩
  | append_singleton t ev ih =>
    obtain ⟨l, hl, hst⟩ := ih htm.prefix_
    have hlast := htm t ev [] rfl
    have hruns : sentIn t = l.runs := by
      have := runs_eq _ t l hl
      simp only [Log.fresh, Nat.zero_add] at this
      exact this.symm
    cases ev with
    | run rnd =>
      obtain ⟨l', hl'⟩ : ∃ l', step cfg ins l (.run rnd) = some l' := ⟨_, rfl⟩
      refine ⟨l', by rw [exec_snoc, hl]; exact hl', Or.inr ?_⟩
      rcases hst with ⟨h0, hs⟩ | ⟨e, r, ha, hg⟩
      · exact ⟨0, 0, at_first hn h0 (hs ▸ hf) rnd l' hl',
          good_first hn hf (hruns.trans h0) htm.prefix_ h0 hs rnd l' hl'⟩
      · by_cases hr : r + 1 < cfg.n
        · exact ⟨e, r + 1, at_same ha hr rnd l' hl', good_same hruns htm.prefix_ ha hg hr rnd l' hl'⟩
        · have hr' : r + 1 = cfg.n := by have := ha.lt; omega
          refine ⟨e + 1, 0, at_new ha hr' rnd l' hl', good_new hruns htm.prefix_ ha hg hr' ?_ rnd l' hl'⟩
          have hd : cfg.n ∣ sentIn t := by
            rw [hruns, ha.runs]
            exact ⟨e + 1, by rw [← hr']; ring⟩
          intro k hk
          exact hlast hd k (by rw [hruns]; exact hk)
    | back id v =>
      obtain ⟨k, hid, hv, hk, hke⟩ := hlast
      subst hid hv
      rcases hst with ⟨h0, hs⟩ | ⟨e, r, ha, hg⟩
      · omega
      · have hn' := ha.lt
        have he : (sentIn t - 1) / cfg.n = e := by
          rw [hruns, ha.runs, Nat.add_sub_cancel, Nat.add_comm, Nat.add_mul_div_right _ _ hn,
            Nat.div_eq_of_lt hn', Nat.zero_add]
        rw [he] at hke
        have hk2 : k = e * cfg.n + k % cfg.n := by
          have := Nat.div_add_mod k cfg.n
          rw [hke, Nat.mul_comm] at this
          exact this.symm
        have hmod := Nat.mod_lt k hn
        obtain ⟨i, hi⟩ : ∃ i, i = k % cfg.n := ⟨_, rfl⟩
        rw [← hi] at hk2 hmod
        rw [hruns, ha.runs] at hk
        have hir : i ≤ r := by omega
        cases hstep : step cfg ins l (.back (k : Int) (c k)) with
        | none =>
          exfalso
          simp only [step] at hstep
          cases has : assignCost cfg (c k) (k : Int) l.swarm with
          | none =>
            refine (assign_none.1 has i hmod) ?_
            rw [ha.ids i hir, hk2]
          | some s => rw [has] at hstep; exact absurd hstep (by simp)
        | some l' =>
          refine ⟨l', by rw [exec_snoc, hl]; exact hstep, Or.inr ⟨e, r, at_back_at hstep ha, ?_⟩⟩
          obtain ⟨f1, f2, f3, f4, f5, f6, f7, f8, f9⟩ := back_fields hstep
          obtain ⟨i', q1, q2, q3, q4⟩ := at_back hstep
          have hii : i' = i := by
            rcases Nat.lt_trichotomy i' i with hlt | heq | hgt
            · exfalso
              rw [ha.ids i' (by omega), hk2] at q2
              have : e * cfg.n + i' = e * cfg.n + i := by exact_mod_cast q2
              omega
            · exact heq
            · exact absurd (by rw [ha.ids i hir, hk2]) (q3 i hgt)
          refine ⟨fun j hj => ?_, fun j hj hb => ?_, ?_, fun j hj => ?_⟩
          · rw [(back_parts hstep j).2.1, f2, hg.pos j hj]
          · by_cases hji : j = i
            · rw [q4, hji, hii]
              simp only [if_true]
              rw [hk2]
            · have : Ev.back ((e * cfg.n + j : Nat) : Int) (c (e * cfg.n + j)) ∈ t := by
                rcases List.mem_append.1 hb with hb | hb
                · exact hb
                · exfalso
                  simp only [List.mem_singleton, Ev.back.injEq] at hb
                  have h1 : e * cfg.n + j = k := by exact_mod_cast hb.1
                  omega
              rw [q4]
              simp only [hii, if_neg hji]
              exact hg.cost j hj this
          · rw [f3, f2]; exact hg.best
          · rw [(back_parts hstep j).2.2.2, f2]; exact hg.pbest j hj

end Gunns.Optim
