import Verif.Optim.SwarmLate
import Mathlib.Tactic.FieldSimp

/-!
# C50: the particle swarm optimizer

Runs are numbered in the order they are sent out; `l.sent k` is the state run `k` was given.
-/

set_option linter.unusedSectionVars false

namespace Gunns.Props

open Gunns.Optim Gunns.Optim.Spec

variable {K : Type _} [Field K] [LinearOrder K] [IsStrictOrderedRing K]
variable {cfg : Config K} {ins : Inputs K}

/-- **C50, start.** Start-up succeeds exactly for a usable configuration.  With random numbers in `[0, 1]` and a
    start at random or in the corners, every free coordinate of every particle starts between its bounds with
    an admissible velocity, all costs start at zero and there is nothing better than `DBL_MAX` yet. -/
theorem c50_init (dblMax : K) (st : Start K) (env : Nat → K) :
    ((∃ s, init dblMax cfg ins st env = some s) ↔
      1 ≤ ins.dim ∧ (∀ j, j < ins.dim → (ins.at_ j).min < (ins.at_ j).max) ∧ 1 ≤ cfg.n ∧ 1 ≤ cfg.maxEpoch ∧
      dblEps ≤ cfg.inertia ∧ dblEps ≤ cfg.inertiaEnd ∧ dblEps ≤ cfg.cog ∧ dblEps ≤ cfg.soc ∧
      dblEps ≤ cfg.maxVel ∧ cfg.maxVel ≤ 1) ∧
    (∀ s, init dblMax cfg ins st env = some s → ∀ v : Nat → Nat → K,
      (∀ i j, 0 ≤ v i j ∧ v i j ≤ 1) →
      (st = .corners v ∨ ∃ x : Nat → Nat → K, (∀ i j, 0 ≤ x i j ∧ x i j ≤ 1) ∧ st = .random x v) →
      s.best.cost = dblMax ∧ ∀ i, i < cfg.n →
        (s.parts i).cur.cost = 0 ∧ (s.parts i).best.cost = dblMax ∧
        ∀ j, j < ins.dim →
          |(s.parts i).vel j| ≤ cfg.maxVel * ((ins.at_ j).max - (ins.at_ j).min) ∧
          ((ins.at_ j).cons = [] →
            (ins.at_ j).min ≤ (s.parts i).cur.pos j ∧ (s.parts i).cur.pos j ≤ (ins.at_ j).max)) := by
  constructor
  · rw [← validate_iff]
    constructor
    · rintro ⟨s, hs⟩
      exact (init_some hs).1
    · intro h
      unfold init
      rw [if_pos h]
      exact ⟨_, rfl⟩
  · intro s hs v hv hst
    obtain ⟨h1, h2, h3, h4, h5, h6⟩ := init_some hs
    obtain ⟨_, hlt, _, _, _, _, _, _, hmv, _⟩ := validate_iff.1 h1
    have hmv0 : 0 < cfg.maxVel := lt_of_lt_of_le dblEps_pos hmv
    have hvel : ∀ i j, j < ins.dim →
        |cfg.maxVel * ((ins.at_ j).max - (ins.at_ j).min) * (1 - 2 * v i j)| ≤
          cfg.maxVel * ((ins.at_ j).max - (ins.at_ j).min) := by
      intro i j hj
      have h7 : 0 < cfg.maxVel * ((ins.at_ j).max - (ins.at_ j).min) :=
        mul_pos hmv0 (sub_pos.2 (hlt j hj))
      rw [abs_mul, abs_of_pos h7]
      have h8 : |1 - 2 * v i j| ≤ 1 := abs_le.2 ⟨by linarith [(hv i j).2], by linarith [(hv i j).1]⟩
      exact mul_le_of_le_one_right h7.le h8
    rcases hst with rfl | ⟨x, hx, rfl⟩
    · refine ⟨by rw [h5]; rfl, fun i hi => ⟨by rw [(h6 i).2.2.1]; rfl, by rw [(h6 i).1]; rfl,
        fun j hj => ⟨by rw [(h6 i).2.1]; exact hvel i j hj, fun hc => ?_⟩⟩⟩
      rw [(h6 i).2.2.2, if_pos hi, constrain_free hc]
      simp only [startPoint]
      have := hlt j hj
      split_ifs
      · exact ⟨le_refl _, this.le⟩
      · exact ⟨this.le, le_refl _⟩
    · refine ⟨by rw [h5]; rfl, fun i hi => ⟨by rw [(h6 i).2.2.1]; rfl, by rw [(h6 i).1]; rfl,
        fun j hj => ⟨by rw [(h6 i).2.1]; exact hvel i j hj, fun hc => ?_⟩⟩⟩
      rw [(h6 i).2.2.2, if_pos hi, constrain_free hc]
      simp only [startPoint]
      have h7 := sub_pos.2 (hlt j hj)
      have h8 := mul_nonneg h7.le (hx i j).1
      have h9 := mul_le_of_le_one_right h7.le (hx i j).2
      exact ⟨by linarith, by linarith⟩

/-- **C50, order of runs.** Whatever results come back and when, run number `k` belongs to particle
    `k mod n` in epoch `k / n + 1`, and the state it is given is that particle's position. -/
theorem c50_counters (dblMax : K) (st : Start K) (env : Nat → K) (s : Swarm K)
    (hs : init dblMax cfg ins st env = some s) (t : List (Ev K)) (l : Log K)
    (h : exec cfg ins (Log.fresh s) t = some l) :
    l.runs = sentIn t ∧
    ∀ k, sentIn t = k + 1 → l.swarm.globalRun = (k : Int) ∧ l.swarm.active = k % cfg.n ∧
      l.swarm.run = ((k % cfg.n : Nat) : Int) ∧ l.swarm.epoch = ((k / cfg.n + 1 : Nat) : Int) ∧
      l.sent k = (l.swarm.parts (k % cfg.n)).cur.pos ∧
      (l.swarm.parts (k % cfg.n)).cur.runId = (k : Int) := by
  obtain ⟨h1, hf, -⟩ := init_some hs
  have hn : 0 < cfg.n := (validate_iff.1 h1).2.2.1
  have hr := runs_eq _ t l h
  simp only [Log.fresh, Nat.zero_add] at hr
  refine ⟨hr, fun k hk => ?_⟩
  obtain ⟨hc, hp⟩ := sent_exec hn hf t l h
  rcases hc with ⟨h0, _⟩ | ⟨e, r, ha⟩
  · omega
  · have h2 := ha.runs
    have hk2 : k = e * cfg.n + r := by omega
    have hd : k / cfg.n = e := by
      rw [hk2, Nat.add_comm, Nat.add_mul_div_right _ _ hn, Nat.div_eq_of_lt ha.lt, Nat.zero_add]
    have hm : k % cfg.n = r := by
      rw [hk2, Nat.add_comm, Nat.add_mul_mod_self_right, Nat.mod_eq_of_lt ha.lt]
    rw [hm, hd]
    exact ⟨by rw [ha.globalRun, hk2], ha.active, ha.run, ha.epoch, by rw [hp e r ha r (le_refl _), hk2],
      by rw [ha.ids r (le_refl _), hk2]⟩

/-- **C50, returned results.** With `d` runs sent out, the result of a run is accepted exactly when the run is
    one of the last `n`; otherwise the optimizer throws.  An accepted result goes to the particle the run
    belongs to and nothing else changes. -/
theorem c50_result (dblMax : K) (st : Start K) (env : Nat → K) (s : Swarm K)
    (hs : init dblMax cfg ins st env = some s) (t : List (Ev K)) (l : Log K)
    (h : exec cfg ins (Log.fresh s) t = some l) (hd : 0 < sentIn t) (k : Nat) (v : K) :
    ((∃ l', step cfg ins l (.back (k : Int) v) = some l') ↔ k < sentIn t ∧ sentIn t ≤ k + cfg.n) ∧
    (∀ l', step cfg ins l (.back (k : Int) v) = some l' →
      (l'.swarm.parts (k % cfg.n)).cur = { (l.swarm.parts (k % cfg.n)).cur with cost := v } ∧
      (l'.swarm.parts (k % cfg.n)).best = (l.swarm.parts (k % cfg.n)).best ∧
      (∀ i, i ≠ k % cfg.n → l'.swarm.parts i = l.swarm.parts i) ∧ l'.swarm.best = l.swarm.best) := by
  obtain ⟨h1, hf, -⟩ := init_some hs
  have hn : 0 < cfg.n := (validate_iff.1 h1).2.2.1
  have hr := runs_eq _ t l h
  simp only [Log.fresh, Nat.zero_add] at hr
  rcases counted_exec hn hf t l h with ⟨h0, _⟩ | ⟨e, r, ha⟩
  · omega
  have hruns := ha.runs
  have hlt := ha.lt
  have hfind : ∀ i, i < cfg.n → (l.swarm.parts i).cur.runId = (k : Int) →
      (∀ i', i' < i → (l.swarm.parts i').cur.runId ≠ (k : Int)) →
      i = k % cfg.n ∧ k < sentIn t ∧ sentIn t ≤ k + cfg.n := by
    intro i hi hid hfirst
    by_cases hir : i ≤ r
    · rw [ha.ids i hir] at hid
      have hk : e * cfg.n + i = k := by exact_mod_cast hid
      refine ⟨?_, by omega, by omega⟩
      rw [← hk, Nat.add_comm, Nat.add_mul_mod_self_right, Nat.mod_eq_of_lt hi]
    · rw [ha.idsGt i (by omega) hi] at hid
      split_ifs at hid with he
      · exfalso
        subst he
        refine hfirst 0 (by omega) ?_
        rw [ha.ids 0 (Nat.zero_le _), ← hid]
        simp
      · have hk : (e - 1) * cfg.n + i = k := by exact_mod_cast hid
        have he2 : e * cfg.n = (e - 1) * cfg.n + cfg.n := by
          obtain ⟨e', rfl⟩ := Nat.exists_eq_succ_of_ne_zero he
          simp only [Nat.succ_eq_add_one, Nat.add_sub_cancel]
          ring
        refine ⟨?_, by omega, by omega⟩
        rw [← hk, Nat.add_comm, Nat.add_mul_mod_self_right, Nat.mod_eq_of_lt hi]
  constructor
  · constructor
    · rintro ⟨l', hl'⟩
      obtain ⟨i, q1, q2, q3, _⟩ := at_back hl'
      exact (hfind i q1 q2 q3).2
    · rintro ⟨hk1, hk2⟩
      cases hst : step cfg ins l (.back (k : Int) v) with
      | some l' => exact ⟨l', rfl⟩
      | none =>
        exfalso
        simp only [step] at hst
        cases has : assignCost cfg v (k : Int) l.swarm with
        | some s' => rw [has] at hst; exact absurd hst (by simp)
        | none =>
          have hall := assign_none.1 has
          by_cases hke : e * cfg.n ≤ k
          · obtain ⟨i, rfl⟩ := Nat.exists_eq_add_of_le hke
            exact hall i (by omega) (ha.ids i (by omega))
          · have he : e ≠ 0 := by rintro rfl; omega
            have he2 : e * cfg.n = (e - 1) * cfg.n + cfg.n := by
              obtain ⟨e', rfl⟩ := Nat.exists_eq_succ_of_ne_zero he
              simp only [Nat.succ_eq_add_one, Nat.add_sub_cancel]
              ring
            obtain ⟨i, rfl⟩ := Nat.exists_eq_add_of_le (show (e - 1) * cfg.n ≤ k by omega)
            refine hall i (by omega) ?_
            rw [ha.idsGt i (by omega) (by omega), if_neg he]
  · intro l' hl'
    obtain ⟨i, q1, q2, q3, q4⟩ := at_back hl'
    obtain ⟨hi, _, _⟩ := hfind i q1 q2 q3
    rw [q4, ← hi]
    refine ⟨by simp, by simp, fun i' hi' => by simp only [if_neg hi'], rfl⟩

/-- **C50, the best state.** If every epoch's results are all back, in any order, before the next epoch
    begins, then nothing is thrown, and once run `k` is sent out the global best is the best of all runs of
    the finished epochs: the starting best if none of them was cheaper, else the earliest of the cheapest,
    with its own state, cost and run number.  The personal best of each particle is the same over its own
    runs. -/
theorem c50_best (dblMax : K) (st : Start K) (env : Nat → K) (s : Swarm K)
    (hs : init dblMax cfg ins st env = some s) (c : Nat → K) (t : List (Ev K))
    (ht : Timely cfg.n c t) :
    ∃ l, exec cfg ins (Log.fresh s) t = some l ∧
      ∀ k, sentIn t = k + 1 →
        BestOf s.best l.sent c (fun _ => True) (k / cfg.n * cfg.n) l.swarm.best ∧
        ∀ i, i < cfg.n → BestOf (s.parts i).best l.sent c (fun q => q % cfg.n = i) (k / cfg.n * cfg.n)
          (l.swarm.parts i).best := by
  obtain ⟨h1, hf, -⟩ := init_some hs
  have hn : 0 < cfg.n := (validate_iff.1 h1).2.2.1
  obtain ⟨l, hl, hst⟩ := timely_exec (ins := ins) hn hf t ht
  refine ⟨l, hl, fun k hk => ?_⟩
  have hr := runs_eq _ t l hl
  simp only [Log.fresh, Nat.zero_add] at hr
  rcases hst with ⟨h0, _⟩ | ⟨e, r, ha, hg⟩
  · omega
  · have h2 := ha.runs
    have hk2 : k = e * cfg.n + r := by omega
    have hd : k / cfg.n = e := by
      rw [hk2, Nat.add_comm, Nat.add_mul_div_right _ _ hn, Nat.div_eq_of_lt ha.lt, Nat.zero_add]
    rw [hd]
    exact ⟨hg.best, hg.pbest⟩

/-- **C50, shutdown.** When all `n · maxEpoch` runs are back the update made by the shutdown leaves the best of
    all of them. -/
theorem c50_shutdown (dblMax : K) (st : Start K) (env : Nat → K) (s : Swarm K)
    (hs : init dblMax cfg ins st env = some s) (c : Nat → K) (t : List (Ev K))
    (ht : Timely cfg.n c t) (hall : sentIn t = numRuns cfg)
    (hback : ∀ k, k < numRuns cfg → Ev.back (k : Int) (c k) ∈ t) (rnd : Nat → Nat → K × K) :
    ∃ l, exec cfg ins (Log.fresh s) t = some l ∧
      BestOf s.best l.sent c (fun _ => True) (cfg.n * cfg.maxEpoch) (update cfg ins rnd l.swarm).best := by
  obtain ⟨h1, hf, -⟩ := init_some hs
  have hv := validate_iff.1 h1
  have hn : 0 < cfg.n := hv.2.2.1
  have hm : 0 < cfg.maxEpoch := hv.2.2.2.1
  obtain ⟨l, hl, hst⟩ := timely_exec (ins := ins) hn hf t ht
  refine ⟨l, hl, ?_⟩
  have hr := runs_eq _ t l hl
  simp only [Log.fresh, Nat.zero_add] at hr
  have hpos : 0 < numRuns cfg := Nat.mul_pos hn hm
  rcases hst with ⟨h0, _⟩ | ⟨e, r, ha, hg⟩
  · omega
  · have h2 := ha.runs
    have h3 := ha.lt
    rw [hr, hall, numRuns] at h2
    have hmod : (e * cfg.n + r + 1) % cfg.n = 0 := by rw [← h2]; exact Nat.mul_mod_right _ _
    have hr1 : r + 1 = cfg.n := by
      by_contra hne
      rw [show e * cfg.n + r + 1 = (r + 1) + e * cfg.n by ring, Nat.add_mul_mod_self_right,
        Nat.mod_eq_of_lt (by omega)] at hmod
      omega
    have he : cfg.n * cfg.maxEpoch = (e + 1) * cfg.n := by rw [h2, ← hr1]; ring
    have hb := (good_updateBest ha hg hr1 (fun k hk => hback k (by rw [hr, hall] at hk; exact hk))).1
    rw [he]
    have hr' : (cfg.n : Int) ≤ l.swarm.run + 1 := by rw [ha.run]; omega
    have hbest : (update cfg ins rnd l.swarm).best = (updateBest cfg l.swarm).best :=
      (dispatch_new (ins := ins) rnd l.swarm hr').2.2.2.2.2.1
    rw [hbest]
    exact hb

/-- **C50, no loss.** Whatever happens, the best cost never rises. -/
theorem c50_monotone (l l' : Log K) (t : List (Ev K)) (h : exec cfg ins l t = some l') :
    l'.swarm.best.cost ≤ l.swarm.best.cost := exec_antitone h

/-- **C50, range.** Whatever random numbers are drawn and whatever comes back, every free coordinate of every
    state sent out after the first epoch lies between the input's bounds, and every velocity is within the
    greatest velocity; also in the first epoch if the swarm starts so. -/
theorem c50_range (dblMax : K) (st : Start K) (env : Nat → K) (s : Swarm K)
    (hs : init dblMax cfg ins st env = some s) (t : List (Ev K)) (l : Log K)
    (h : exec cfg ins (Log.fresh s) t = some l) (j : Nat) (hj : j < ins.dim)
    (hfree : (ins.at_ j).cons = []) :
    (∀ k, cfg.n ≤ k → k < sentIn t →
      (ins.at_ j).min ≤ l.sent k j ∧ l.sent k j ≤ (ins.at_ j).max) ∧
    (cfg.n < sentIn t → ∀ i, i < cfg.n →
      |(l.swarm.parts i).vel j| ≤ cfg.maxVel * ((ins.at_ j).max - (ins.at_ j).min)) ∧
    ((∀ i, i < cfg.n → ∀ j, j < ins.dim → (ins.at_ j).cons = [] →
        (ins.at_ j).min ≤ (s.parts i).cur.pos j ∧ (s.parts i).cur.pos j ≤ (ins.at_ j).max ∧
        |(s.parts i).vel j| ≤ cfg.maxVel * ((ins.at_ j).max - (ins.at_ j).min)) →
      ∀ k, k < sentIn t → (ins.at_ j).min ≤ l.sent k j ∧ l.sent k j ≤ (ins.at_ j).max) := by
  obtain ⟨h1, hf, h3, -⟩ := init_some hs
  obtain ⟨_, hlt, hn, _, _, _, _, _, hmv, _⟩ := validate_iff.1 h1
  have hr := runs_eq _ t l h
  simp only [Log.fresh, Nat.zero_add] at hr
  have hi := range_exec (ins := ins) hn hf (fun j hj => (hlt j hj).le)
    (fun j hj => by rw [h3 j]; exact mul_nonneg (dblEps_pos.le.trans hmv) (sub_nonneg.2 (hlt j hj).le)) t l h
  refine ⟨fun k hk hk2 => hi.sent k (by omega) (Or.inr hk) j hj hfree, fun hk i hin => ?_,
    fun h0 k hk => hi.sent k (by omega) (Or.inl fun i hi' j' hj' hc' => ?_) j hj hfree⟩
  · have := hi.swarm (Or.inr (by omega)) i hin j hj hfree
    rw [hi.maxV, h3 j] at this
    exact abs_le.2 ⟨this.2.2.1, this.2.2.2⟩
  · have := h0 i hi' j' hj' hc'
    rw [h3 j']
    exact ⟨this.1, this.2.1, abs_le.1 this.2.2⟩

/-- **C50, movement.** At the end of an epoch a free coordinate moves by its velocity, which is the weighted old
    velocity plus the pulls towards the personal and the global best, cut off at the greatest velocity; a
    coordinate that would pass a bound stops at the bound and its velocity is reversed.  The last epoch uses
    the final inertia weight. -/
theorem c50_move (w : K) (rnd : Nat → Nat → K × K) (s : Swarm K) (i j : Nat) (hi : i < cfg.n)
    (hj : j < ins.dim) (hfree : (ins.at_ j).cons = []) (hv : 0 ≤ s.maxV j)
    (hb : (ins.at_ j).min ≤ (ins.at_ j).max) :
    let q := propagate cfg ins w rnd s
    let x := (s.parts i).cur.pos j
    let v := max (min (w * (s.parts i).vel j + cfg.cog * (rnd i j).1 * ((q.parts i).best.pos j - x) +
      cfg.soc * (rnd i j).2 * (q.best.pos j - x)) (s.maxV j)) (-s.maxV j)
    (q.parts i).cur.pos j = max (min (x + v) (ins.at_ j).max) (ins.at_ j).min ∧
    (q.parts i).vel j =
      (if (ins.at_ j).min ≤ x + v ∧ x + v ≤ (ins.at_ j).max then v else -v) ∧
    (0 < cfg.maxEpoch → inertiaAt cfg (cfg.maxEpoch : Int) = cfg.inertiaEnd) := by
  intro q x v
  obtain ⟨f1, f2, f3, f4, f5, f6, f7, f8, f9⟩ := propagate_fields (cfg := cfg) (ins := ins) w rnd s
  obtain ⟨b1, b2, b3, b4, b5, b6, b7⟩ := loop_best s cfg.n
  have hv' : newVel cfg w (s.maxV j) (rnd i j).1 (rnd i j).2 x ((s.parts i).vel j)
      ((q.parts i).best.pos j) (q.best.pos j) = v := by
    unfold newVel
    simp only [v, ← add_assoc]
    generalize w * (s.parts i).vel j + cfg.cog * (rnd i j).1 * ((q.parts i).best.pos j - x) +
      cfg.soc * (rnd i j).2 * (q.best.pos j - x) = a
    split_ifs with h1 h2
    · rw [min_eq_right h1.le, max_eq_left (by linarith)]
    · rw [min_eq_left (not_lt.1 h1), max_eq_right h2.le]
    · rw [min_eq_left (not_lt.1 h1), max_eq_left (not_lt.1 h2)]
  have hx : ((updateBest cfg s).parts i).cur.pos j = x := by unfold updateBest; rw [(b1 i).1]
  have hvl : ((updateBest cfg s).parts i).vel j = (s.parts i).vel j := by unfold updateBest; rw [(b1 i).2.1]
  have hmv : (updateBest cfg s).maxV = s.maxV := b6
  have hpb : ((updateBest cfg s).parts i).best = (q.parts i).best := (f8 i).symm
  have hgb : (updateBest cfg s).best = q.best := f7.symm
  have hpos : (q.parts i).cur.pos j = newPos (ins.at_ j).min (ins.at_ j).max x v := by
    rw [← hv', ← hx, ← hvl, ← hmv, ← hpb, ← hgb]
    simp only [q, propagate, applyStateConstraints, if_pos hi, constrain_free hfree, moveParticle, if_pos hj]
  have hvel : (q.parts i).vel j = reflect (ins.at_ j).min (ins.at_ j).max x v := by
    rw [← hv', ← hx, ← hvl, ← hmv, ← hpb, ← hgb]
    simp only [q, propagate, applyStateConstraints, if_pos hi, moveParticle, if_pos hj]
  refine ⟨?_, ?_, fun hm => ?_⟩
  · rw [hpos]
    unfold newPos
    split_ifs with h1 h2
    · rw [min_eq_left (h1.le.trans hb), max_eq_right h1.le]
    · rw [min_eq_right (le_of_lt h2), max_eq_left hb]
    · rw [min_eq_left (not_lt.1 h2), max_eq_left (not_lt.1 h1)]
  · rw [hvel]
    unfold reflect
    by_cases h1 : x + v < (ins.at_ j).min
    · rw [if_pos h1, if_neg (fun h => absurd h.1 (not_le.2 h1))]; ring
    · by_cases h2 : x + v > (ins.at_ j).max
      · rw [if_neg h1, if_pos h2, if_neg (fun h => absurd h.2 (not_le.2 h2))]; ring
      · rw [if_neg h1, if_neg h2, if_pos ⟨not_lt.1 h1, not_lt.1 h2⟩]
  · unfold inertiaAt
    have : ((cfg.maxEpoch : Nat) : K) ≠ 0 := by exact_mod_cast hm.ne'
    push_cast
    field_simp
    ring

/-- **C50, constraints.** A constrained coordinate of every state sent out after the first epoch is the sum of
    the constraint functions taken on the state that was sent out last in the epoch before, whatever state it
    belongs to. -/
theorem c50_constraint (dblMax : K) (st : Start K) (env : Nat → K) (s : Swarm K)
    (hs : init dblMax cfg ins st env = some s) (t : List (Ev K)) (l : Log K)
    (h : exec cfg ins (Log.fresh s) t = some l) (j : Nat) (hj : j < ins.dim)
    (hcons : (ins.at_ j).cons ≠ []) (k : Nat) (hk : cfg.n ≤ k) (hk2 : k < sentIn t) :
    l.sent k j = total (ins.at_ j).cons
      (fun i => if i < ins.dim then l.sent (k / cfg.n * cfg.n - 1) i else env i) := by
  obtain ⟨h1, hf, _, h4, -⟩ := init_some hs
  have hn : 0 < cfg.n := (validate_iff.1 h1).2.2.1
  have hr := runs_eq _ t l h
  simp only [Log.fresh, Nat.zero_add] at hr
  have := (cons_exec (ins := ins) hn hf t l h).sent k (by omega) hk j hj hcons
  rw [this]
  unfold envAt
  rw [h4]

/-- **C50, late results in the first epoch.** Let all costs be positive.  If some run of the first epoch is
    still out when the second epoch begins, then from then on the best state is for ever the state of a run that
    was out, with cost zero. -/
theorem c50_late_first (dblMax : K) (st : Start K) (env : Nat → K) (s : Swarm K)
    (hs : init dblMax cfg ins st env = some s) (hmax : 0 < dblMax)
    (hst : (∃ v, st = .corners v) ∨ ∃ x v, st = .random x v)
    (pre : List (Ev K)) (l : Log K) (h : exec cfg ins (Log.fresh s) pre = some l)
    (hn : sentIn pre = cfg.n) (hpos : ∀ id v, Ev.back id v ∈ pre → 0 < v)
    (k : Nat) (hk : k < cfg.n) (hout : ∀ v, Ev.back (k : Int) v ∉ pre) :
    ∃ i, i < cfg.n ∧ (∀ v, Ev.back (i : Int) v ∉ pre) ∧
      ∀ rnd rest l', (∀ id v, Ev.back id v ∈ rest → 0 < v) →
        exec cfg ins l (.run rnd :: rest) = some l' →
        l'.swarm.best = ⟨l.sent i, 0, (i : Int)⟩ := by
  obtain ⟨h1, hf, h3, h4, h5, h6⟩ := init_some hs
  have hn0 : 0 < cfg.n := (validate_iff.1 h1).2.2.1
  have hr := runs_eq _ pre l h
  simp only [Log.fresh, Nat.zero_add] at hr
  have hcost0 : ∀ i, (s.parts i).cur.cost = 0 := by
    intro i
    rw [(h6 i).2.2.1]
    rcases hst with ⟨v, rfl⟩ | ⟨x, v, rfl⟩ <;> rfl
  have hb0 : s.best.cost = dblMax := by
    rw [h5]
    rcases hst with ⟨v, rfl⟩ | ⟨x, v, rfl⟩ <;> rfl
  obtain ⟨hc, hb, hz⟩ := first_exec (ins := ins) hn0 hf hcost0 pre l h
  have hle : l.runs ≤ cfg.n := by omega
  have hz' := hz hle hpos
  obtain ⟨_, hsent⟩ := sent_exec (ins := ins) hn0 hf pre l h
  rcases hc with ⟨h0, _⟩ | ⟨e, r, ha⟩
  · omega
  have hr0 := ha.runs
  have hlt := ha.lt
  have he : e = 0 := by
    rcases Nat.eq_zero_or_pos e with he | he
    · exact he
    · have := Nat.mul_le_mul_right cfg.n he
      omega
  subst he
  have hr1 : r + 1 = cfg.n := by omega
  have hbl : 0 < l.swarm.best.cost := by rw [hb hle, hb0]; exact hmax
  rcases zero_best hbl cfg.n (fun i hi => (hz' i hi).1) with ⟨_, hall⟩ | ⟨i, hi, hi0, hib⟩
  · have := hall k hk
    rw [(hz' k hk).2.2 hout] at this
    exact absurd this (lt_irrefl _)
  · refine ⟨i, hi, (hz' i hi).2.1 hi0, fun rnd rest l' hrest hex => ?_⟩
    have hr' : (cfg.n : Int) ≤ l.swarm.run + 1 := by rw [ha.run]; omega
    obtain ⟨g1, g2, g3, g4, g5, g6, g7, g8⟩ := dispatch_new (ins := ins) rnd l.swarm hr'
    have hcur : (l.swarm.parts i).cur = ⟨l.sent i, 0, (i : Int)⟩ := by
      have e1 := hsent 0 r ha i (by omega)
      have e2 := ha.ids i (by omega)
      simp only [Nat.zero_mul, Nat.zero_add] at e1 e2
      rw [← e1, ← hi0, ← e2]
    simp only [exec, step] at hex
    have hkeep := keep_exec (cfg := cfg) (ins := ins)
      (l0 := ⟨dispatch cfg ins rnd l.swarm, l.runs + 1,
        fun k => if k = l.runs then getState (dispatch cfg ins rnd l.swarm) else l.sent k⟩)
      (by simp only; rw [g6]; unfold updateBest; rw [hib]; exact hi0)
      (fun i hi => by simp only; rw [(g7 i).2.2.2.1]; exact (hz' i hi).1) rest
      (fun id v hv => (hrest id v hv).le) l' hex
    rw [hkeep]
    simp only
    rw [g6]
    unfold updateBest
    rw [hib, hcur]

/-! ### Concrete cases -/

/-- One or two inputs in `[0, 10]`; with two, the second is constrained to equal the first. -/
def psoIns (dim : Nat) : Inputs ℚ :=
  ⟨dim, fun j => ⟨0, 10, if j = 0 then [] else [fun env => env 0]⟩⟩

/-- Two particles, two epochs, inertia one. -/
def psoCfg : Config ℚ := ⟨2, 2, 1, 1, 1, 1, 1/10⟩

/-- No pull. -/
def psoRnd : Nat → Nat → ℚ × ℚ := fun _ _ => (0, 0)

/-- Start in the corners with velocities `1/2` and `-1`. -/
def psoStart : Start ℚ := .corners (fun i _ => if i = 0 then 1/4 else 1)

/-- The start-up of the cases. -/
def psoInit (dim : Nat) : Option (Swarm ℚ) := init 1000 psoCfg (psoIns dim) psoStart (fun _ => 0)

/-- Cost of a state: the distance from `a`, squared. -/
def psoCost (a : ℚ) (x : Nat → ℚ) : ℚ := (x 0 - a) * (x 0 - a)

/-- A case is decided by running it. -/
theorem psoWitness {dim : Nat} {t : List (Ev ℚ)} {P : Log ℚ → Prop} [DecidablePred P]
    (h : ((psoInit dim).bind (fun s => exec psoCfg (psoIns dim) (Log.fresh s) t)).any
      (fun l => decide (P l)) = true) :
    ∃ s l, psoInit dim = some s ∧ exec psoCfg (psoIns dim) (Log.fresh s) t = some l ∧ P l := by
  cases hs : psoInit dim with
  | none => rw [hs] at h; exact absurd h (by simp)
  | some s =>
    rw [hs] at h
    cases hl : exec psoCfg (psoIns dim) (Log.fresh s) t with
    | none => simp only [Option.bind_some, hl] at h; exact absurd h (by simp)
    | some l =>
      simp only [Option.bind_some, hl, Option.any_some, decide_eq_true_eq] at h
      exact ⟨s, l, rfl, hl, h⟩

/-- Two epochs with timely results, the second pair in reverse order. -/
def psoTrace : List (Ev ℚ) :=
  [.run psoRnd, .run psoRnd, .back 0 16, .back 1 36, .run psoRnd, .run psoRnd, .back 3 25, .back 2 (49/4)]

/-- The results of the case, run by run. -/
def psoCosts : Nat → ℚ := fun k => if k = 0 then 16 else if k = 1 then 36 else if k = 2 then 49/4 else 25

/-- A case of `c50_best` and `c50_shutdown`: the costs are those of the states sent out, all results are in
    time, and the shutdown reports run 2 with `x = 1/2` and cost `49/4`. -/
example : ∃ s l, psoInit 1 = some s ∧ exec psoCfg (psoIns 1) (Log.fresh s) psoTrace = some l ∧
    psoCost 4 (l.sent 0) = 16 ∧ psoCost 4 (l.sent 1) = 36 ∧ psoCost 4 (l.sent 2) = 49/4 ∧ psoCost 4 (l.sent 3) = 25 ∧
    l.swarm.best.cost = 16 ∧ l.swarm.best.runId = 0 ∧
    (update psoCfg (psoIns 1) psoRnd l.swarm).best.cost = 49/4 ∧
    (update psoCfg (psoIns 1) psoRnd l.swarm).best.pos 0 = 1/2 ∧
    (update psoCfg (psoIns 1) psoRnd l.swarm).best.runId = 2 := by
  exact psoWitness (by decide +kernel)

example : Timely 2 psoCosts psoTrace := by
  intro pre e post h
  unfold psoTrace at h
  rcases pre with _ | ⟨p0, _ | ⟨p1, _ | ⟨p2, _ | ⟨p3, _ | ⟨p4, _ | ⟨p5, _ | ⟨p6, _ | ⟨p7, pre⟩⟩⟩⟩⟩⟩⟩⟩ <;>
    simp only [List.nil_append, List.cons_append, List.cons.injEq, List.nil_eq, List.append_eq_nil_iff,
      reduceCtorEq, and_false] at h
  · obtain ⟨rfl, -⟩ := h
    intro _ k hk
    exact absurd hk (Nat.not_lt_zero _)
  · obtain ⟨rfl, rfl, -⟩ := h
    intro hd
    exact absurd hd (by decide)
  · obtain ⟨rfl, rfl, rfl, -⟩ := h
    exact ⟨0, rfl, by decide +kernel, by decide, by decide⟩
  · obtain ⟨rfl, rfl, rfl, rfl, -⟩ := h
    exact ⟨1, rfl, by decide +kernel, by decide, by decide⟩
  · obtain ⟨rfl, rfl, rfl, rfl, rfl, -⟩ := h
    intro _ k hk
    have hk2 : k = 0 ∨ k = 1 := by
      have : k < 2 := hk
      omega
    rcases hk2 with rfl | rfl
    · simp [psoCosts]
    · simp [psoCosts]
  · obtain ⟨rfl, rfl, rfl, rfl, rfl, rfl, -⟩ := h
    intro hd
    exact absurd hd (by decide)
  · obtain ⟨rfl, rfl, rfl, rfl, rfl, rfl, rfl, -⟩ := h
    exact ⟨3, rfl, by decide +kernel, by decide, by decide⟩
  · obtain ⟨rfl, rfl, rfl, rfl, rfl, rfl, rfl, rfl, -⟩ := h
    exact ⟨2, rfl, by decide +kernel, by decide, by decide⟩

/-- A case of `c50_late_first`: run 1 is out when run 2 is sent; its state `10` is reported with cost zero
    although it costs 36, and the better state of run 2 never replaces it. -/
example : ∃ s l, psoInit 1 = some s ∧
    exec psoCfg (psoIns 1) (Log.fresh s) [.run psoRnd, .run psoRnd, .back 0 16, .run psoRnd, .back 1 36,
      .run psoRnd, .back 2 (49/4), .back 3 25, .run psoRnd] = some l ∧
    l.swarm.best.cost = 0 ∧ l.swarm.best.pos 0 = 10 ∧ psoCost 4 (l.sent 1) = 36 ∧
    psoCost 4 (l.sent 2) = 49/4 := by
  exact psoWitness (by decide +kernel)

/-- **C50, late results in a later epoch.** The best state may be one state with the cost of another: here every
    result is the cost of the state its run was given and comes back while it is accepted, with run 3 out over
    the end of the second epoch and run 5 over the end of the third, and the reported best state is that of
    run 5, which costs one, with the cost zero of run 3. -/
theorem c50_late_swap :
    ∃ s l, psoInit 1 = some s ∧
      exec psoCfg (psoIns 1) (Log.fresh s) [.run psoRnd, .run psoRnd, .back 0 81, .back 1 1, .run psoRnd,
        .run psoRnd, .back 2 (289/4), .run psoRnd, .back 3 0, .run psoRnd, .back 4 64, .run psoRnd] = some l ∧
      psoCost 9 (l.sent 0) = 81 ∧ psoCost 9 (l.sent 1) = 1 ∧ psoCost 9 (l.sent 2) = 289/4 ∧
      psoCost 9 (l.sent 3) = 0 ∧ psoCost 9 (l.sent 4) = 64 ∧
      l.swarm.best.cost = 0 ∧ l.swarm.best.runId = 5 ∧ l.swarm.best.pos 0 = l.sent 5 0 ∧
      psoCost 9 l.swarm.best.pos = 1 := by
  exact psoWitness (by decide +kernel)

/-- **C50, constraints fail.** The constraint that the second input equals the first does not hold for the states
    sent out. -/
theorem c50_constraint_wrong :
    ∃ s l, psoInit 2 = some s ∧
      exec psoCfg (psoIns 2) (Log.fresh s) [.run psoRnd, .run psoRnd, .back 0 16, .back 1 36, .run psoRnd] =
        some l ∧
      (((psoIns 2).at_ 1).cons.map (fun f => f (fun i => l.sent 2 i))) = [l.sent 2 0] ∧
      l.sent 2 1 ≠ l.sent 2 0 ∧ l.sent 1 1 ≠ l.sent 1 0 := by
  exact psoWitness (by decide +kernel)

end Gunns.Props
