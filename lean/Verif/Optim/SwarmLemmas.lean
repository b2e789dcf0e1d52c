import Verif.Optim.SwarmSpec
import Mathlib.Tactic.Ring
import Mathlib.Tactic.Linarith

set_option linter.unusedSectionVars false

namespace Gunns.Optim

open Spec

variable {K : Type _} [Field K] [LinearOrder K] [IsStrictOrderedRing K]
variable {cfg : Config K} {ins : Inputs K}

/-! ### Best points -/

theorem Spec.BestOf.zero (b0 : Point K) (x : Nat → Nat → K) (c : Nat → K) (sel : Nat → Prop) :
    BestOf b0 x c sel 0 b0 := Or.inl ⟨rfl, fun _ h => absurd h (Nat.not_lt_zero _)⟩

theorem Spec.BestOf.skip {b0 b : Point K} {x : Nat → Nat → K} {c : Nat → K} {sel : Nat → Prop} {m : Nat}
    (h : BestOf b0 x c sel m b) (hs : ¬ sel m) : BestOf b0 x c sel (m + 1) b := by
  rcases h with ⟨h1, h2⟩ | ⟨k, hk, hsel, hb, h0, h1, h2⟩
  · refine Or.inl ⟨h1, fun k hk hsk => ?_⟩
    rcases Nat.lt_succ_iff_lt_or_eq.1 hk with h | h
    · exact h2 k h hsk
    · exact absurd (h ▸ hsk) hs
  · refine Or.inr ⟨k, Nat.lt_succ_of_lt hk, hsel, hb, h0, fun k' hk' hsk => ?_, h2⟩
    rcases Nat.lt_succ_iff_lt_or_eq.1 hk' with h | h
    · exact h1 k' h hsk
    · exact absurd (h ▸ hsk) hs

theorem Spec.BestOf.take {b0 b p : Point K} {x : Nat → Nat → K} {c : Nat → K} {sel : Nat → Prop} {m : Nat}
    (h : BestOf b0 x c sel m b) (hs : sel m) (hp : p = ⟨x m, c m, (m : Int)⟩) :
    BestOf b0 x c sel (m + 1) (if p.cost < b.cost then p else b) := by
  subst hp
  rcases h with ⟨h1, h2⟩ | ⟨k, hk, hsel, hb, h0, h1, h2⟩
  · subst h1
    by_cases hc : c m < b.cost
    · rw [if_pos hc]
      refine Or.inr ⟨m, Nat.lt_succ_self m, hs, rfl, hc, fun k' hk' hsk => ?_, fun k' hk' hsk =>
        lt_of_lt_of_le hc (h2 k' hk' hsk)⟩
      rcases Nat.lt_succ_iff_lt_or_eq.1 hk' with h | h
      · exact le_of_lt (lt_of_lt_of_le hc (h2 k' h hsk))
      · rw [h]
    · rw [if_neg hc]
      refine Or.inl ⟨rfl, fun k hk hsk => ?_⟩
      rcases Nat.lt_succ_iff_lt_or_eq.1 hk with h | h
      · exact h2 k h hsk
      · rw [h]; exact not_lt.1 hc
  · subst hb
    by_cases hc : c m < c k
    · rw [if_pos hc]
      refine Or.inr ⟨m, Nat.lt_succ_self m, hs, rfl, lt_trans hc h0, fun k' hk' hsk => ?_,
        fun k' hk' hsk => lt_of_lt_of_le hc (h1 k' hk' hsk)⟩
      rcases Nat.lt_succ_iff_lt_or_eq.1 hk' with h | h
      · exact le_of_lt (lt_of_lt_of_le hc (h1 k' h hsk))
      · rw [h]
    · rw [if_neg hc]
      refine Or.inr ⟨k, Nat.lt_succ_of_lt hk, hsel, rfl, h0, fun k' hk' hsk => ?_, h2⟩
      rcases Nat.lt_succ_iff_lt_or_eq.1 hk' with h | h
      · exact h1 k' h hsk
      · rw [h]; exact not_lt.1 hc

theorem Spec.BestOf.congr {b0 b : Point K} {x y : Nat → Nat → K} {c : Nat → K} {sel : Nat → Prop} {m : Nat}
    (h : BestOf b0 x c sel m b) (hxy : ∀ k, k < m → x k = y k) : BestOf b0 y c sel m b := by
  rcases h with h | ⟨k, hk, hsel, hb, h0, h1, h2⟩
  · exact Or.inl h
  · exact Or.inr ⟨k, hk, hsel, by rw [hb, hxy k hk], h0, h1, h2⟩

/-! ### Sequences of events -/

theorem sentIn_append (a b : List (Ev K)) : sentIn (a ++ b) = sentIn a + sentIn b := by
  induction a with
  | nil => simp [sentIn]
  | cons e t ih =>
    cases e with
    | run rnd => simp only [List.cons_append, sentIn, ih]; omega
    | back id v => simp only [List.cons_append, sentIn, ih]

theorem exec_append (l : Log K) (a b : List (Ev K)) :
    exec cfg ins l (a ++ b) = (exec cfg ins l a).bind (fun l' => exec cfg ins l' b) := by
  induction a generalizing l with
  | nil => rfl
  | cons e t ih =>
    simp only [List.cons_append, exec]
    cases step cfg ins l e with
    | none => rfl
    | some l' => exact ih l'

theorem exec_snoc (l : Log K) (a : List (Ev K)) (e : Ev K) :
    exec cfg ins l (a ++ [e]) = (exec cfg ins l a).bind (fun l' => step cfg ins l' e) := by
  rw [exec_append]
  congr 1
  funext l'
  simp only [exec]
  cases step cfg ins l' e <;> rfl

/-- Invariant rule for sequences of events that do not throw. -/
theorem exec_inv (P : List (Ev K) → Log K → Prop) (l0 : Log K) (h0 : P [] l0)
    (hs : ∀ t e l l', P t l → step cfg ins l e = some l' → P (t ++ [e]) l') (t : List (Ev K)) (l : Log K)
    (h : exec cfg ins l0 t = some l) : P t l := by
  induction t using List.reverseRecOn generalizing l with
  | nil => simp only [exec, Option.some.injEq] at h; exact h ▸ h0
  | append_singleton t e ih =>
    rw [exec_snoc] at h
    cases he : exec cfg ins l0 t with
    | none => rw [he] at h; exact absurd h (by simp)
    | some l1 => rw [he] at h; exact hs t e l1 l (ih l1 he) h

theorem runs_eq (l : Log K) (t : List (Ev K)) (l' : Log K) (h : exec cfg ins l t = some l') :
    l'.runs = l.runs + sentIn t := by
  refine exec_inv (fun t l' => l'.runs = l.runs + sentIn t) l rfl (fun t e l1 l2 h1 h2 => ?_) t l' h
  cases e with
  | run rnd =>
    simp only [step, Option.some.injEq] at h2
    rw [← h2, sentIn_append]
    simp only [sentIn]
    omega
  | back id v =>
    simp only [step] at h2
    cases ha : assignCost cfg v id l1.swarm with
    | none => rw [ha] at h2; exact absurd h2 (by simp)
    | some s => rw [ha] at h2; rw [← Option.some.inj h2, sentIn_append, h1]; simp [sentIn]

/-! ### The parts of `update` -/

/-- What `updateBest` has done after `i` particles. -/
theorem loop_best (s : Swarm K) (n : Nat) :
    let r := loop bestStep n s
    (∀ i, (r.parts i).cur = (s.parts i).cur ∧ (r.parts i).vel = (s.parts i).vel ∧
      (r.parts i).best = if i < n then
        (if (s.parts i).cur.cost < (s.parts i).best.cost then (s.parts i).cur else (s.parts i).best)
        else (s.parts i).best) ∧
    r.active = s.active ∧ r.globalRun = s.globalRun ∧ r.run = s.run ∧ r.epoch = s.epoch ∧
    r.maxV = s.maxV ∧ r.env = s.env := by
  intro r
  induction n with
  | zero => exact ⟨fun i => ⟨rfl, rfl, rfl⟩, rfl, rfl, rfl, rfl, rfl, rfl⟩
  | succ n ih =>
    obtain ⟨h1, h2⟩ := ih
    refine ⟨fun i => ?_, h2⟩
    have hi := h1 i
    have hn := h1 n
    rw [if_neg (lt_irrefl n)] at hn
    have hr : r = bestStep n (loop bestStep n s) := rfl
    by_cases hin : i = n
    · subst hin
      simp only [hr, bestStep, if_true, hn.1, hn.2.1, hn.2.2, Nat.lt_succ_self, true_and]
    · simp only [hr, bestStep, if_neg hin]
      refine ⟨hi.1, hi.2.1, hi.2.2.trans ?_⟩
      have : (i < n) = (i < n + 1) := propext ⟨fun h => by omega, fun h => by omega⟩
      simp only [this]

theorem loop_best_global (s : Swarm K) (n : Nat) :
    (loop bestStep (n + 1) s).best =
      if (s.parts n).cur.cost < (loop bestStep n s).best.cost then (s.parts n).cur
      else (loop bestStep n s).best := by
  have h := ((loop_best s n).1 n).1
  rw [loop_succ]
  simp only [bestStep, h]

theorem propagate_fields (w : K) (rnd : Nat → Nat → K × K) (s : Swarm K) :
    let r := propagate cfg ins w rnd s
    r.active = s.active ∧ r.globalRun = s.globalRun ∧ r.run = s.run ∧ r.epoch = s.epoch ∧
    r.maxV = s.maxV ∧ r.env = s.env ∧ r.best = (updateBest cfg s).best ∧
    (∀ i, (r.parts i).best = ((updateBest cfg s).parts i).best) ∧
    (∀ i, (r.parts i).cur.cost = (s.parts i).cur.cost ∧ (r.parts i).cur.runId = (s.parts i).cur.runId) := by
  intro r
  obtain ⟨h1, h2, h3, h4, h5, h6, h7⟩ := loop_best s cfg.n
  refine ⟨h2, h3, h4, h5, h6, h7, rfl, fun i => ?_, fun i => ?_⟩
  · by_cases hi : i < cfg.n <;>
      simp only [r, propagate, applyStateConstraints, hi, if_true, if_false, moveParticle]
  · have := (h1 i).1
    by_cases hi : i < cfg.n <;>
      simp only [r, propagate, applyStateConstraints, hi, if_true, if_false, moveParticle, updateBest,
        this, and_self]

/-- The state of a swarm after `updateMasterPre` when the epoch goes on. -/
theorem dispatch_same (rnd : Nat → Nat → K × K) (s : Swarm K) (h : s.run + 1 < (cfg.n : Int)) :
    let r := dispatch cfg ins rnd s
    r.active = (s.run + 1).toNat ∧ r.globalRun = s.globalRun + 1 ∧ r.run = s.run + 1 ∧ r.epoch = s.epoch ∧
    r.maxV = s.maxV ∧ r.best = s.best ∧
    (∀ i, (r.parts i).best = (s.parts i).best ∧ (r.parts i).vel = (s.parts i).vel ∧
      (r.parts i).cur.pos = (s.parts i).cur.pos ∧ (r.parts i).cur.cost = (s.parts i).cur.cost ∧
      (r.parts i).cur.runId = if i = (s.run + 1).toNat then s.globalRun + 1 else (s.parts i).cur.runId) ∧
    (∀ j, r.env j = if j < ins.dim then getState r j else s.env j) := by
  intro r
  have hr : r = dispatch cfg ins rnd s := rfl
  have hn : ¬ ((cfg.n : Int) ≤ s.run + 1) := by omega
  simp only [dispatch, update, hn, if_false, activate] at hr
  refine ⟨by rw [hr], by rw [hr], by rw [hr], by rw [hr], by rw [hr], by rw [hr], fun i => ?_, fun j => ?_⟩
  · by_cases hi : i = (s.run + 1).toNat
    · simp only [hr, hi, if_true, and_self]
    · simp only [hr, hi, if_false, and_self]
  · simp only [hr, getState]

/-- The state of a swarm after `updateMasterPre` when a new epoch begins. -/
theorem dispatch_new (rnd : Nat → Nat → K × K) (s : Swarm K) (h : (cfg.n : Int) ≤ s.run + 1) :
    let q := propagate cfg ins (inertiaAt cfg (s.epoch + 1)) rnd
      { s with globalRun := s.globalRun + 1, run := 0, epoch := s.epoch + 1 }
    let r := dispatch cfg ins rnd s
    r.active = 0 ∧ r.globalRun = s.globalRun + 1 ∧ r.run = 0 ∧ r.epoch = s.epoch + 1 ∧
    r.maxV = s.maxV ∧ r.best = (updateBest cfg s).best ∧
    (∀ i, (r.parts i).best = ((updateBest cfg s).parts i).best ∧ (r.parts i).vel = (q.parts i).vel ∧
      (r.parts i).cur.pos = (q.parts i).cur.pos ∧ (r.parts i).cur.cost = (s.parts i).cur.cost ∧
      (r.parts i).cur.runId = if i = 0 then s.globalRun + 1 else (s.parts i).cur.runId) ∧
    (∀ j, r.env j = if j < ins.dim then getState r j else s.env j) := by
  intro q r
  have hr : r = dispatch cfg ins rnd s := rfl
  obtain ⟨f1, f2, f3, f4, f5, f6, f7, f8, f9⟩ := propagate_fields (cfg := cfg) (ins := ins)
    (inertiaAt cfg (s.epoch + 1)) rnd
    { s with globalRun := s.globalRun + 1, run := 0, epoch := s.epoch + 1 }
  have hb : ∀ n, (loop bestStep n
      { s with globalRun := s.globalRun + 1, run := 0, epoch := s.epoch + 1 }).best =
      (loop bestStep n s).best := by
    intro n
    induction n with
    | zero => rfl
    | succ n ih => rw [loop_best_global, loop_best_global, ih]
  have hp : ∀ n i, ((loop bestStep n
      { s with globalRun := s.globalRun + 1, run := 0, epoch := s.epoch + 1 }).parts i).best =
      ((loop bestStep n s).parts i).best := by
    intro n i
    rw [((loop_best _ n).1 i).2.2, ((loop_best s n).1 i).2.2]
  simp only [dispatch, update, h, if_true, activate] at hr
  have hq : q.run.toNat = 0 := by rw [show q.run = 0 from f3]; rfl
  refine ⟨by rw [hr]; exact hq, by rw [hr]; exact f2, by rw [hr]; exact f3, by rw [hr]; exact f4,
    by rw [hr]; exact f5, by rw [hr]; exact f7.trans (hb _), fun i => ?_, fun j => ?_⟩
  · have e8 : (q.parts i).best = ((updateBest cfg s).parts i).best := (f8 i).trans (hp _ i)
    have e9 := f9 i
    have hpi : r.parts i = if i = q.run.toNat then
        { q.parts i with cur := { (q.parts i).cur with runId := q.globalRun } } else q.parts i := by
      rw [hr]
    rw [hq] at hpi
    by_cases hi : i = 0
    · rw [if_pos hi] at hpi
      rw [if_pos hi, hpi]
      exact ⟨e8, rfl, rfl, e9.1, f2⟩
    · rw [if_neg hi] at hpi
      rw [if_neg hi, hpi]
      exact ⟨e8, rfl, rfl, e9.1, e9.2⟩
  · rw [hr]
    simp only [getState]
    by_cases hj : j < ins.dim
    · simp only [hj, if_true]
    · simp only [hj, if_false]
      exact congrFun f6 j

/-! ### `assignCost` -/

theorem assign_some {cost : K} {id : Int} {s s' : Swarm K} (h : assignCost cfg cost id s = some s') :
    ∃ i, i < cfg.n ∧ (s.parts i).cur.runId = id ∧ (∀ k, k < i → (s.parts k).cur.runId ≠ id) ∧
      s' = { s with
             parts := fun k =>
               if k = i then { s.parts i with cur := { (s.parts i).cur with cost := cost } }
               else s.parts k } := by
  unfold assignCost at h
  cases hf : (List.range cfg.n).find? (fun i => decide (id = (s.parts i).cur.runId)) with
  | none => rw [hf] at h; exact absurd h (by simp)
  | some i =>
    rw [hf] at h
    obtain ⟨h1, as, bs, h2, h3⟩ := List.find?_eq_some_iff_append.1 hf
    have hlen : as.length = i ∧ i < cfg.n := by
      have hl : as.length < cfg.n := by
        have := congrArg List.length h2
        simp only [List.length_range, List.length_append, List.length_cons] at this
        omega
      have hg : (List.range cfg.n)[as.length]? = some i := by rw [h2]; simp
      rw [List.getElem?_range hl] at hg
      have := Option.some.inj hg
      exact ⟨this, this ▸ hl⟩
    refine ⟨i, hlen.2, ((decide_eq_true_iff).1 h1).symm, fun k hk he => ?_, (Option.some.inj h).symm⟩
    have hmem : k ∈ as := by
      have hk2 : k < as.length := by omega
      have hg : (List.range cfg.n)[k]? = some k := List.getElem?_range (by omega)
      rw [h2, List.getElem?_append_left hk2] at hg
      exact List.mem_of_getElem? hg
    have := h3 k hmem
    simp [he] at this

theorem assign_none {cost : K} {id : Int} {s : Swarm K} :
    assignCost cfg cost id s = none ↔ ∀ i, i < cfg.n → (s.parts i).cur.runId ≠ id := by
  unfold assignCost
  cases hf : (List.range cfg.n).find? (fun i => decide (id = (s.parts i).cur.runId)) with
  | none =>
    simp only [true_iff]
    intro i hi he
    have := List.find?_eq_none.1 hf i (List.mem_range.2 hi)
    simp [he] at this
  | some i =>
    simp only [reduceCtorEq, false_iff]
    intro hall
    have h1 := List.find?_some hf
    have h2 := List.mem_of_find?_eq_some hf
    exact hall i (List.mem_range.1 h2) (of_decide_eq_true h1).symm

end Gunns.Optim
