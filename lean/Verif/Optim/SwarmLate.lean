import Verif.Optim.SwarmRange

set_option linter.unusedSectionVars false

namespace Gunns.Optim

open Spec

variable {K : Type _} [Field K] [LinearOrder K] [IsStrictOrderedRing K]
variable {cfg : Config K} {ins : Inputs K}

/-! ### Positions of the particles that have been sent out in the current epoch -/

theorem sent_exec {s0 : Swarm K} (hn : 0 < cfg.n) (hf : Fresh s0) (t : List (Ev K)) (l : Log K)
    (h : exec cfg ins (Log.fresh s0) t = some l) :
    Counted cfg l ∧ ∀ e r, At cfg l e r → ∀ i, i ≤ r →
      (l.swarm.parts i).cur.pos = l.sent (e * cfg.n + i) := by
  refine exec_inv (fun _ l => Counted cfg l ∧ ∀ e r, At cfg l e r → ∀ i, i ≤ r →
    (l.swarm.parts i).cur.pos = l.sent (e * cfg.n + i)) (Log.fresh s0) ?_ (fun t ev l1 l2 h1 h2 => ?_) t l h
  · refine ⟨Or.inl ⟨rfl, hf⟩, fun e r ha => ?_⟩
    have := ha.runs
    simp only [Log.fresh] at this
    omega
  · obtain ⟨hc, hp⟩ := h1
    refine ⟨counted_step hn hc _ h2, fun e r ha i hi => ?_⟩
    cases ev with
    | run rnd =>
      have hl : l2 = ⟨dispatch cfg ins rnd l1.swarm, l1.runs + 1,
          fun k => if k = l1.runs then getState (dispatch cfg ins rnd l1.swarm) else l1.sent k⟩ := by
        simp only [step, Option.some.injEq] at h2; exact h2.symm
      have hsent : ∀ k, l2.sent k = if k = l1.runs then getState l2.swarm else l1.sent k := by
        intro k; rw [hl]
      have hruns : l2.runs = l1.runs + 1 := by rw [hl]
      have hlast : e * cfg.n + r = l1.runs := by have := ha.runs; omega
      rw [hsent]
      by_cases hir : i = r
      · rw [if_pos (by omega)]
        unfold getState
        rw [ha.active, hir]
      · rw [if_neg (by omega)]
        rcases hc with ⟨h0, hf1⟩ | ⟨e', r', ha'⟩
        · have := (At.unique ha (at_first hn h0 hf1 rnd l2 h2)).2
          omega
        · by_cases hr : r' + 1 < cfg.n
          · obtain ⟨he, hr2⟩ := At.unique ha (at_same ha' hr rnd l2 h2)
            have hr' : l1.swarm.run + 1 < (cfg.n : Int) := by rw [ha'.run]; omega
            obtain ⟨g1, g2, g3, g4, g5, g6, g7, g8⟩ := dispatch_same (ins := ins) rnd l1.swarm hr'
            have : (l2.swarm.parts i).cur.pos = (l1.swarm.parts i).cur.pos := by
              rw [hl]; exact (g7 i).2.2.1
            rw [this, he, hp e' r' ha' i (by omega)]
          · have := (At.unique ha (at_new ha' (by have := ha'.lt; omega) rnd l2 h2)).2
            omega
    | back id v =>
      obtain ⟨f1, f2, f3, f4, f5, f6, f7, f8, f9⟩ := back_fields h2
      rw [(back_parts h2 i).2.1, f2]
      rcases hc with ⟨h0, _⟩ | ⟨e', r', ha'⟩
      · have := ha.runs
        rw [f1, h0] at this
        omega
      · obtain ⟨he, hr⟩ := At.unique ha (at_back_at h2 ha')
        subst he hr
        exact hp _ _ ha' i hi

/-! ### The first epoch -/

/-- During the first epoch a particle's cost is zero exactly while its run is out. -/
theorem first_exec {s0 : Swarm K} (hn : 0 < cfg.n) (hf : Fresh s0)
    (h0 : ∀ i, (s0.parts i).cur.cost = 0) (t : List (Ev K)) (l : Log K)
    (h : exec cfg ins (Log.fresh s0) t = some l) :
    Counted cfg l ∧ (l.runs ≤ cfg.n → l.swarm.best = s0.best) ∧
    (l.runs ≤ cfg.n → (∀ id v, Ev.back id v ∈ t → 0 < v) → ∀ i, i < cfg.n →
      0 ≤ (l.swarm.parts i).cur.cost ∧
      ((l.swarm.parts i).cur.cost = 0 ↔ ∀ v, Ev.back (i : Int) v ∉ t)) := by
  refine exec_inv (fun t l => Counted cfg l ∧ (l.runs ≤ cfg.n → l.swarm.best = s0.best) ∧
    (l.runs ≤ cfg.n → (∀ id v, Ev.back id v ∈ t → 0 < v) → ∀ i, i < cfg.n →
      0 ≤ (l.swarm.parts i).cur.cost ∧
      ((l.swarm.parts i).cur.cost = 0 ↔ ∀ v, Ev.back (i : Int) v ∉ t)))
    (Log.fresh s0) ?_ (fun t ev l1 l2 h1 h2 => ?_) t l h
  · refine ⟨Or.inl ⟨rfl, hf⟩, fun _ => rfl, fun _ _ i _ => ?_⟩
    simp only [Log.fresh, h0, le_refl, true_and, true_iff]
    intro v hv
    simp at hv
  · obtain ⟨hc, hb, hp⟩ := h1
    cases ev with
    | run rnd =>
      have hl : l2 = ⟨dispatch cfg ins rnd l1.swarm, l1.runs + 1,
          fun k => if k = l1.runs then getState (dispatch cfg ins rnd l1.swarm) else l1.sent k⟩ := by
        simp only [step, Option.some.injEq] at h2; exact h2.symm
      have hruns : l2.runs = l1.runs + 1 := by rw [hl]
      have key : l2.runs ≤ cfg.n → l2.swarm.best = l1.swarm.best ∧
          ∀ i, (l2.swarm.parts i).cur.cost = (l1.swarm.parts i).cur.cost := by
        intro hle
        have hr : l1.swarm.run + 1 < (cfg.n : Int) := by
          rcases hc with ⟨_, hf1⟩ | ⟨e, r, ha⟩
          · rw [hf1.2.1]; omega
          · have h3 := ha.runs
            have h4 := ha.lt
            rcases Nat.eq_zero_or_pos e with he | he
            · subst he; rw [ha.run]; omega
            · have := Nat.mul_le_mul_right cfg.n he
              omega
        obtain ⟨g1, g2, g3, g4, g5, g6, g7, g8⟩ := dispatch_same (ins := ins) rnd l1.swarm hr
        exact ⟨by rw [hl]; exact g6, fun i => by rw [hl]; exact (g7 i).2.2.2.1⟩
      refine ⟨counted_step hn hc _ h2, fun hle => ?_, fun hle hpos i hi => ?_⟩
      · rw [(key hle).1, hb (by omega)]
      · rw [(key hle).2 i]
        have h3 := hp (by omega) (fun id v hv => hpos id v (List.mem_append_left _ hv)) i hi
        refine ⟨h3.1, h3.2.trans ⟨fun h4 v hv => ?_, fun h4 v hv => h4 v (List.mem_append_left _ hv)⟩⟩
        rcases List.mem_append.1 hv with hv | hv
        · exact h4 v hv
        · simp at hv
    | back id v =>
      obtain ⟨f1, f2, f3, f4, f5, f6, f7, f8, f9⟩ := back_fields h2
      obtain ⟨i', q1, q2, q3, q4⟩ := at_back h2
      refine ⟨counted_step hn hc _ h2, fun hle => by rw [f3, hb (by omega)], fun hle hpos i hi => ?_⟩
      have h3 := hp (by omega) (fun id v hv => hpos id v (List.mem_append_left _ hv)) i hi
      have hid : id = (i' : Int) := by
        rcases hc with ⟨_, hf1⟩ | ⟨e, r, ha⟩
        · rw [← q2, hf1.2.2.2]
          rcases Nat.eq_zero_or_pos i' with hi' | hi'
          · rw [hi']; rfl
          · exact absurd (by rw [← q2, hf1.2.2.2, hf1.2.2.2]) (q3 0 hi')
        · have h4 := ha.runs
          have he : e = 0 := by
            rcases Nat.eq_zero_or_pos e with he | he
            · exact he
            · have := Nat.mul_le_mul_right cfg.n he
              omega
          subst he
          by_cases hir : i' ≤ r
          · rw [← q2, ha.ids i' hir]; simp
          · have h5 := ha.idsGt i' (by omega) q1
            have h6 := ha.ids 0 (Nat.zero_le _)
            exact absurd (by rw [← q2, h5, h6]; simp) (q3 0 (by omega))
      by_cases hii : i = i'
      · have hcost : (l2.swarm.parts i).cur.cost = v := by rw [q4, hii]; simp
        have hv : 0 < v := hpos id v (by simp)
        rw [hcost]
        refine ⟨hv.le, ⟨fun h => absurd h hv.ne', fun h => ?_⟩⟩
        exact absurd (by rw [hid, hii]; simp) (h v)
      · have hcost : (l2.swarm.parts i).cur.cost = (l1.swarm.parts i).cur.cost := by
          rw [q4]; simp only [if_neg hii]
        rw [hcost]
        refine ⟨h3.1, h3.2.trans ⟨fun h4 w hw => ?_, fun h4 w hw => h4 w (List.mem_append_left _ hw)⟩⟩
        rcases List.mem_append.1 hw with hw | hw
        · exact h4 w hw
        · simp only [List.mem_singleton, Ev.back.injEq] at hw
          rw [hid] at hw
          have : i = i' := by exact_mod_cast hw.1
          exact hii this

/-- With costs that are not negative and one that is zero, `updateBest` takes the first zero. -/
theorem zero_best {s : Swarm K} (hb : 0 < s.best.cost) (n : Nat)
    (hc : ∀ i, i < n → 0 ≤ (s.parts i).cur.cost) :
    (0 < (loop bestStep n s).best.cost ∧ ∀ i, i < n → 0 < (s.parts i).cur.cost) ∨
    ∃ i, i < n ∧ (s.parts i).cur.cost = 0 ∧ (loop bestStep n s).best = (s.parts i).cur := by
  induction n with
  | zero => exact Or.inl ⟨hb, fun i hi => absurd hi (Nat.not_lt_zero _)⟩
  | succ n ih =>
    rw [loop_best_global]
    rcases ih (fun i hi => hc i (Nat.lt_succ_of_lt hi)) with ⟨h1, h2⟩ | ⟨i, h1, h2, h3⟩
    · rcases (hc n (Nat.lt_succ_self n)).lt_or_eq with h | h
      · refine Or.inl ⟨by split_ifs <;> assumption, fun i hi => ?_⟩
        rcases Nat.lt_succ_iff_lt_or_eq.1 hi with h3 | h3
        · exact h2 i h3
        · rw [h3]; exact h
      · exact Or.inr ⟨n, Nat.lt_succ_self n, h.symm, by rw [if_pos (by rw [← h]; exact h1)]⟩
    · refine Or.inr ⟨i, Nat.lt_succ_of_lt h1, h2, ?_⟩
      rw [if_neg (by rw [h3, h2]; exact not_lt.2 (hc n (Nat.lt_succ_self n))), h3]

/-- A best cost of zero is never improved by costs that are not negative. -/
theorem keep_best {s : Swarm K} (hb : s.best.cost = 0) (n : Nat)
    (hc : ∀ i, i < n → 0 ≤ (s.parts i).cur.cost) : (loop bestStep n s).best = s.best := by
  induction n with
  | zero => rfl
  | succ n ih =>
    have h := ih (fun i hi => hc i (Nat.lt_succ_of_lt hi))
    rw [loop_best_global, h, if_neg]
    rw [hb]
    exact not_lt.2 (hc n (Nat.lt_succ_self n))

theorem keep_exec {l0 : Log K} (h0 : l0.swarm.best.cost = 0)
    (hc0 : ∀ i, i < cfg.n → 0 ≤ (l0.swarm.parts i).cur.cost) (t : List (Ev K))
    (ht : ∀ id v, Ev.back id v ∈ t → 0 ≤ v) (l : Log K) (h : exec cfg ins l0 t = some l) :
    l.swarm.best = l0.swarm.best := by
  have := exec_inv (fun t l => (∀ id v, Ev.back id v ∈ t → 0 ≤ v) → l.swarm.best = l0.swarm.best ∧
    ∀ i, i < cfg.n → 0 ≤ (l.swarm.parts i).cur.cost) l0 (fun _ => ⟨rfl, hc0⟩)
    (fun t ev l1 l2 h1 h2 ht => ?_) t l h
  · exact (this ht).1
  · obtain ⟨hb, hc⟩ := h1 (fun id v hv => ht id v (List.mem_append_left _ hv))
    cases ev with
    | run rnd =>
      have hl : l2.swarm = dispatch cfg ins rnd l1.swarm := by
        simp only [step, Option.some.injEq] at h2; rw [← h2]
      rw [hl]
      by_cases hr : l1.swarm.run + 1 < (cfg.n : Int)
      · obtain ⟨g1, g2, g3, g4, g5, g6, g7, g8⟩ := dispatch_same (ins := ins) rnd l1.swarm hr
        exact ⟨g6.trans hb, fun i hi => by rw [(g7 i).2.2.2.1]; exact hc i hi⟩
      · obtain ⟨g1, g2, g3, g4, g5, g6, g7, g8⟩ := dispatch_new (cfg := cfg) (ins := ins) rnd l1.swarm (by omega)
        refine ⟨g6.trans ?_, fun i hi => by rw [(g7 i).2.2.2.1]; exact hc i hi⟩
        rw [← hb]
        exact keep_best (by rw [hb, h0]) cfg.n hc
    | back id v =>
      obtain ⟨f1, f2, f3, f4, f5, f6, f7, f8, f9⟩ := back_fields h2
      obtain ⟨i', q1, q2, q3, q4⟩ := at_back h2
      refine ⟨by rw [f3, hb], fun i hi => ?_⟩
      by_cases hii : i = i'
      · have hcost : (l2.swarm.parts i).cur.cost = v := by rw [q4, hii]; simp
        rw [hcost]; exact ht id v (by simp)
      · have hcost : (l2.swarm.parts i).cur.cost = (l1.swarm.parts i).cur.cost := by
          rw [q4]; simp only [if_neg hii]
        rw [hcost]; exact hc i hi

/-- The cost of the best point never rises. -/
theorem best_antitone (s : Swarm K) (n : Nat) : (loop bestStep n s).best.cost ≤ s.best.cost := by
  induction n with
  | zero => exact le_refl _
  | succ n ih =>
    rw [loop_best_global]
    split_ifs with h
    · exact h.le.trans ih
    · exact ih

theorem step_antitone {l l' : Log K} {e : Ev K} (h : step cfg ins l e = some l') :
    l'.swarm.best.cost ≤ l.swarm.best.cost := by
  cases e with
  | run rnd =>
    have hl : l'.swarm = dispatch cfg ins rnd l.swarm := by
      simp only [step, Option.some.injEq] at h; rw [← h]
    rw [hl]
    by_cases hr : l.swarm.run + 1 < (cfg.n : Int)
    · rw [(dispatch_same (ins := ins) rnd l.swarm hr).2.2.2.2.2.1]
    · rw [(dispatch_new (cfg := cfg) (ins := ins) rnd l.swarm (by omega)).2.2.2.2.2.1]
      exact best_antitone l.swarm cfg.n
  | back id v => rw [(back_fields h).2.2.1]

theorem exec_antitone {l l' : Log K} {t : List (Ev K)} (h : exec cfg ins l t = some l') :
    l'.swarm.best.cost ≤ l.swarm.best.cost :=
  exec_inv (fun _ l' => l'.swarm.best.cost ≤ l.swarm.best.cost) l (le_refl _)
    (fun _ _ _ _ h1 h2 => (step_antitone h2).trans h1) t l' h

/-! ### Start-up -/

theorem validate_iff : validate cfg ins = true ↔
    1 ≤ ins.dim ∧ (∀ j, j < ins.dim → (ins.at_ j).min < (ins.at_ j).max) ∧ 1 ≤ cfg.n ∧ 1 ≤ cfg.maxEpoch ∧
    dblEps ≤ cfg.inertia ∧ dblEps ≤ cfg.inertiaEnd ∧ dblEps ≤ cfg.cog ∧ dblEps ≤ cfg.soc ∧
    dblEps ≤ cfg.maxVel ∧ cfg.maxVel ≤ 1 := by
  simp only [validate, Bool.and_eq_true, List.all_eq_true, List.mem_range, Bool.not_eq_true',
    decide_eq_false_iff_not, not_lt, not_le, and_assoc]

theorem init_some {dblMax : K} {st : Start K} {env : Nat → K} {s : Swarm K}
    (h : init dblMax cfg ins st env = some s) :
    validate cfg ins = true ∧ Fresh s ∧
    (∀ j, s.maxV j = cfg.maxVel * ((ins.at_ j).max - (ins.at_ j).min)) ∧ s.env = env ∧
    s.best = startGlobal dblMax st ∧
    ∀ i, (s.parts i).best = startBest dblMax st i ∧
      (s.parts i).vel = startVel (fun j => cfg.maxVel * ((ins.at_ j).max - (ins.at_ j).min)) st i ∧
      (s.parts i).cur.cost = (startPoint cfg ins st i).cost ∧
      (s.parts i).cur.pos = (if i < cfg.n then
        constrainInputs ins env (startPoint cfg ins st i).pos else (startPoint cfg ins st i).pos) := by
  unfold init at h
  split_ifs at h with hv
  have hs := (Option.some.inj h).symm
  have hid : ∀ i, (startPoint cfg ins st i).runId = 0 := by intro i; cases st <;> rfl
  refine ⟨hv, ⟨by rw [hs]; rfl, by rw [hs]; rfl, by rw [hs]; rfl, fun i => ?_⟩, fun j => by rw [hs]; rfl,
    by rw [hs]; rfl, by rw [hs]; rfl, fun i => ?_⟩
  · rw [hs]
    by_cases hi : i < cfg.n
    · simp only [applyStateConstraints, if_pos hi, hid]
    · simp only [applyStateConstraints, if_neg hi, hid]
  · rw [hs]
    by_cases hi : i < cfg.n
    · simp only [applyStateConstraints, if_pos hi, and_self]
    · simp only [applyStateConstraints, if_neg hi, and_self]

end Gunns.Optim
