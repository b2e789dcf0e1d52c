import Verif.Optim.SwarmRun

set_option linter.unusedSectionVars false

namespace Gunns.Optim

open Spec

variable {K : Type _} [Field K] [LinearOrder K] [IsStrictOrderedRing K]
variable {cfg : Config K} {ins : Inputs K}

/-! ### Positions and velocities stay in range -/

theorem newVel_bounds {w vmax r1 r2 x v pb gb : K} (h : 0 ≤ vmax) :
    -vmax ≤ newVel cfg w vmax r1 r2 x v pb gb ∧ newVel cfg w vmax r1 r2 x v pb gb ≤ vmax := by
  unfold newVel
  generalize w * v + (cfg.cog * r1 * (pb - x) + cfg.soc * r2 * (gb - x)) = a
  dsimp only
  split_ifs with h1 h2
  · exact ⟨by linarith, le_refl _⟩
  · exact ⟨le_refl _, by linarith⟩
  · exact ⟨not_lt.1 h2, not_lt.1 h1⟩

theorem newPos_bounds {lo hi x v : K} (h : lo ≤ hi) : lo ≤ newPos lo hi x v ∧ newPos lo hi x v ≤ hi := by
  unfold newPos
  split_ifs with h1 h2
  · exact ⟨le_refl _, h⟩
  · exact ⟨h, le_refl _⟩
  · exact ⟨not_lt.1 h1, not_lt.1 h2⟩

theorem reflect_bounds {lo hi x v vmax : K} (h1 : -vmax ≤ v) (h2 : v ≤ vmax) :
    -vmax ≤ reflect lo hi x v ∧ reflect lo hi x v ≤ vmax := by
  unfold reflect
  split_ifs
  · exact ⟨by linarith, by linarith⟩
  · exact ⟨by linarith, by linarith⟩
  · exact ⟨h1, h2⟩

/-- Positions of the free inputs lie between their bounds, and velocities within the greatest velocity. -/
def InRange (cfg : Config K) (ins : Inputs K) (s : Swarm K) : Prop :=
  ∀ i, i < cfg.n → ∀ j, j < ins.dim → (ins.at_ j).cons = [] →
    (ins.at_ j).min ≤ (s.parts i).cur.pos j ∧ (s.parts i).cur.pos j ≤ (ins.at_ j).max ∧
    -s.maxV j ≤ (s.parts i).vel j ∧ (s.parts i).vel j ≤ s.maxV j

theorem constrain_free {env x : Nat → K} {j : Nat} (h : (ins.at_ j).cons = []) :
    constrainInputs ins env x j = x j := by
  unfold constrainInputs applyConstraints
  rw [if_pos h]
  split_ifs <;> rfl

theorem foldl_total (fs : List ((Nat → K) → K)) (env : Nat → K) (a : K) :
    fs.foldl (fun out f => out + f env) a = a + total fs env := by
  induction fs generalizing a with
  | nil => simp [total]
  | cons f t ih =>
    rw [List.foldl_cons, ih]
    simp only [total, List.map_cons, List.sum_cons]
    ring

theorem constrain_bound {env x : Nat → K} {j : Nat} (hj : j < ins.dim) (h : (ins.at_ j).cons ≠ []) :
    constrainInputs ins env x j = total (ins.at_ j).cons env := by
  unfold constrainInputs applyConstraints
  rw [if_pos hj, if_neg h, foldl_total, zero_add]

theorem propagate_inRange (w : K) (rnd : Nat → Nat → K × K) (s : Swarm K)
    (hb : ∀ j, j < ins.dim → (ins.at_ j).min ≤ (ins.at_ j).max) (hv : ∀ j, j < ins.dim → 0 ≤ s.maxV j) :
    InRange cfg ins (propagate cfg ins w rnd s) := by
  intro i hi j hj hc
  have hm : (propagate cfg ins w rnd s).maxV = s.maxV := (propagate_fields w rnd s).2.2.2.2.1
  have hm2 : (updateBest cfg s).maxV = s.maxV := (loop_best s cfg.n).2.2.2.2.2.1
  rw [hm]
  simp only [propagate, applyStateConstraints, if_pos hi, constrain_free hc, moveParticle, if_pos hj, hm2]
  have h1 := newVel_bounds (cfg := cfg) (w := w) (r1 := (rnd i j).1) (r2 := (rnd i j).2)
    (x := ((updateBest cfg s).parts i).cur.pos j) (v := ((updateBest cfg s).parts i).vel j)
    (pb := ((updateBest cfg s).parts i).best.pos j) (gb := (updateBest cfg s).best.pos j) (hv j hj)
  exact ⟨(newPos_bounds (hb j hj)).1, (newPos_bounds (hb j hj)).2, (reflect_bounds h1.1 h1.2).1,
    (reflect_bounds h1.1 h1.2).2⟩

/-- What a run with a boundary does to a constrained coordinate. -/
theorem propagate_constrained (w : K) (rnd : Nat → Nat → K × K) (s : Swarm K) {i j : Nat}
    (hi : i < cfg.n) (hj : j < ins.dim) (hc : (ins.at_ j).cons ≠ []) :
    ((propagate cfg ins w rnd s).parts i).cur.pos j = total (ins.at_ j).cons s.env := by
  have he : (updateBest cfg s).env = s.env := (loop_best s cfg.n).2.2.2.2.2.2
  simp only [propagate, applyStateConstraints, if_pos hi, constrain_bound hj hc, he]

/-- The invariant behind `c50_range`. -/
structure RangeInv (cfg : Config K) (ins : Inputs K) (s0 : Swarm K) (l : Log K) : Prop where
  counted : Counted cfg l
  maxV : l.swarm.maxV = s0.maxV
  swarm : InRange cfg ins s0 ∨ cfg.n < l.runs → InRange cfg ins l.swarm
  sent : ∀ k, k < l.runs → (InRange cfg ins s0 ∨ cfg.n ≤ k) → ∀ j, j < ins.dim → (ins.at_ j).cons = [] →
    (ins.at_ j).min ≤ l.sent k j ∧ l.sent k j ≤ (ins.at_ j).max

theorem range_run {s0 : Swarm K} {l l' : Log K} (hn : 0 < cfg.n)
    (hb : ∀ j, j < ins.dim → (ins.at_ j).min ≤ (ins.at_ j).max) (hv : ∀ j, j < ins.dim → 0 ≤ s0.maxV j)
    (h : RangeInv cfg ins s0 l) (rnd : Nat → Nat → K × K) (hs : step cfg ins l (.run rnd) = some l') :
    RangeInv cfg ins s0 l' := by
  have hc' := counted_step hn h.counted _ hs
  have hl' : l' = ⟨dispatch cfg ins rnd l.swarm, l.runs + 1,
      fun k => if k = l.runs then getState (dispatch cfg ins rnd l.swarm) else l.sent k⟩ := by
    simp only [step, Option.some.injEq] at hs; exact hs.symm
  have key : l'.swarm.maxV = s0.maxV ∧
      (InRange cfg ins s0 ∨ cfg.n < l'.runs → InRange cfg ins l'.swarm) ∧
      l'.swarm.active < cfg.n := by
    rcases h.counted with ⟨h0, hf⟩ | ⟨e, r, ha⟩
    · have hr : l.swarm.run + 1 < (cfg.n : Int) := by rw [hf.2.1]; omega
      obtain ⟨g1, g2, g3, g4, g5, g6, g7, g8⟩ := dispatch_same (ins := ins) rnd l.swarm hr
      have hmv : l'.swarm.maxV = l.swarm.maxV := by rw [hl']; exact g5
      refine ⟨hmv.trans h.maxV, fun hor => ?_, by rw [hl']; simp only; rw [g1, hf.2.1]; simpa using hn⟩
      have h1 := h.swarm (hor.imp id (fun hlt => by rw [hl'] at hlt; simp only at hlt; omega))
      intro i hi j hj hcj
      have := h1 i hi j hj hcj
      rw [hmv]
      simp only [hl', (g7 i).2.1, (g7 i).2.2.1]
      exact this
    · by_cases hr : r + 1 < cfg.n
      · have hr' : l.swarm.run + 1 < (cfg.n : Int) := by rw [ha.run]; omega
        obtain ⟨g1, g2, g3, g4, g5, g6, g7, g8⟩ := dispatch_same (ins := ins) rnd l.swarm hr'
        have hmv : l'.swarm.maxV = l.swarm.maxV := by rw [hl']; exact g5
        refine ⟨hmv.trans h.maxV, fun hor => ?_,
          by rw [hl']; simp only; rw [g1, ha.run]; omega⟩
        have h1 := h.swarm (hor.imp id (fun hlt => by
          rw [hl'] at hlt
          simp only at hlt
          rw [ha.runs] at hlt ⊢
          rcases Nat.eq_zero_or_pos e with he | he
          · subst he; omega
          · have := Nat.mul_le_mul_right cfg.n he
            omega))
        intro i hi j hj hcj
        have := h1 i hi j hj hcj
        rw [hmv]
        simp only [hl', (g7 i).2.1, (g7 i).2.2.1]
        exact this
      · have hr' : (cfg.n : Int) ≤ l.swarm.run + 1 := by rw [ha.run]; omega
        obtain ⟨g1, g2, g3, g4, g5, g6, g7, g8⟩ := dispatch_new (ins := ins) rnd l.swarm hr'
        have hmv : l'.swarm.maxV = l.swarm.maxV := by rw [hl']; exact g5
        refine ⟨hmv.trans h.maxV, fun _ => ?_, by rw [hl']; simp only; rw [g1]; exact hn⟩
        have h1 := propagate_inRange (cfg := cfg) (ins := ins) (inertiaAt cfg (l.swarm.epoch + 1)) rnd
          { l.swarm with globalRun := l.swarm.globalRun + 1, run := 0, epoch := l.swarm.epoch + 1 } hb
          (by simp only; rw [h.maxV]; exact hv)
        intro i hi j hj hcj
        have h2 := h1 i hi j hj hcj
        rw [show (propagate cfg ins (inertiaAt cfg (l.swarm.epoch + 1)) rnd
          { l.swarm with globalRun := l.swarm.globalRun + 1, run := 0, epoch := l.swarm.epoch + 1 }).maxV =
          l.swarm.maxV from (propagate_fields _ rnd _).2.2.2.2.1] at h2
        rw [hmv]
        simp only [hl', (g7 i).2.1, (g7 i).2.2.1]
        exact h2
  refine ⟨hc', key.1, key.2.1, fun k hk hor j hj hcj => ?_⟩
  have hruns : l'.runs = l.runs + 1 := by rw [hl']
  have hsent : ∀ k, l'.sent k = if k = l.runs then getState l'.swarm else l.sent k := by
    intro k; rw [hl']
  rw [hsent]
  by_cases hkr : k = l.runs
  · rw [if_pos hkr]
    have h1 := key.2.1 (hor.imp id (fun h => by omega)) _ key.2.2 j hj hcj
    exact ⟨h1.1, h1.2.1⟩
  · rw [if_neg hkr]
    exact h.sent k (by omega) hor j hj hcj

theorem range_exec {s0 : Swarm K} (hn : 0 < cfg.n) (hf : Fresh s0)
    (hb : ∀ j, j < ins.dim → (ins.at_ j).min ≤ (ins.at_ j).max) (hv : ∀ j, j < ins.dim → 0 ≤ s0.maxV j)
    (t : List (Ev K)) (l : Log K) (h : exec cfg ins (Log.fresh s0) t = some l) :
    RangeInv cfg ins s0 l := by
  refine exec_inv (fun _ l => RangeInv cfg ins s0 l) (Log.fresh s0) ?_ (fun t e l1 l2 h1 h2 => ?_) t l h
  · exact ⟨Or.inl ⟨rfl, hf⟩, rfl, fun h => h.elim id (fun h => absurd h (Nat.not_lt_zero _)),
      fun k hk => absurd hk (Nat.not_lt_zero _)⟩
  · cases e with
    | run rnd => exact range_run hn hb hv h1 rnd h2
    | back id v =>
      obtain ⟨f1, f2, f3, f4, f5, f6, f7, f8, f9⟩ := back_fields h2
      refine ⟨counted_step hn h1.counted _ h2, by rw [f8, h1.maxV], fun hor => ?_, fun k hk => ?_⟩
      · rw [f1] at hor
        intro i hi j hj hc
        rw [(back_parts h2 i).2.1, (back_parts h2 i).2.2.1, f8]
        exact h1.swarm hor i hi j hj hc
      · rw [f2]; rw [f1] at hk; exact h1.sent k hk

/-! ### Constrained inputs -/

/-- The model variables after run `k` has been sent out. -/
def envAt (ins : Inputs K) (s0 : Swarm K) (sent : Nat → Nat → K) (k : Nat) : Nat → K :=
  fun j => if j < ins.dim then sent k j else s0.env j

structure ConsInv (cfg : Config K) (ins : Inputs K) (s0 : Swarm K) (l : Log K) : Prop where
  counted : Counted cfg l
  env : l.swarm.env = if l.runs = 0 then s0.env else envAt ins s0 l.sent (l.runs - 1)
  pos : ∀ e r, At cfg l e r → 0 < e → ∀ i, i < cfg.n → ∀ j, j < ins.dim → (ins.at_ j).cons ≠ [] →
    (l.swarm.parts i).cur.pos j = total (ins.at_ j).cons (envAt ins s0 l.sent (e * cfg.n - 1))
  sent : ∀ k, k < l.runs → cfg.n ≤ k → ∀ j, j < ins.dim → (ins.at_ j).cons ≠ [] →
    l.sent k j = total (ins.at_ j).cons (envAt ins s0 l.sent (k / cfg.n * cfg.n - 1))

theorem At.unique {l : Log K} {e r e' r' : Nat} (h : At cfg l e r) (h' : At cfg l e' r') :
    e = e' ∧ r = r' := by
  have h1 := h.epoch
  have h2 := h'.epoch
  have h3 := h.active
  have h4 := h'.active
  rw [h1] at h2
  rw [h3] at h4
  exact ⟨by have : e + 1 = e' + 1 := by exact_mod_cast h2
            omega, h4⟩

theorem cons_run {s0 : Swarm K} {l l' : Log K} (hn : 0 < cfg.n) (h : ConsInv cfg ins s0 l)
    (rnd : Nat → Nat → K × K) (hs : step cfg ins l (.run rnd) = some l') : ConsInv cfg ins s0 l' := by
  have hc' := counted_step hn h.counted _ hs
  have hl' : l' = ⟨dispatch cfg ins rnd l.swarm, l.runs + 1,
      fun k => if k = l.runs then getState (dispatch cfg ins rnd l.swarm) else l.sent k⟩ := by
    simp only [step, Option.some.injEq] at hs; exact hs.symm
  have hruns : l'.runs = l.runs + 1 := by rw [hl']
  have hsent : ∀ k, l'.sent k = if k = l.runs then getState l'.swarm else l.sent k := by
    intro k; rw [hl']
  have henvAt : ∀ k, k < l.runs → envAt ins s0 l'.sent k = envAt ins s0 l.sent k := by
    intro k hk
    have h1 : l'.sent k = l.sent k := by rw [hsent, if_neg (by omega)]
    unfold envAt
    rw [h1]
  have hsame : ∀ j, ¬ j < ins.dim → l.swarm.env j = s0.env j := by
    intro j hj
    rw [h.env]
    split_ifs
    · rfl
    · unfold envAt; rw [if_neg hj]
  have henv : (∀ j, l'.swarm.env j = if j < ins.dim then getState l'.swarm j else l.swarm.env j) →
      l'.swarm.env = if l'.runs = 0 then s0.env else envAt ins s0 l'.sent (l'.runs - 1) := by
    intro h1
    rw [hruns, if_neg (by omega), Nat.add_sub_cancel]
    funext j
    rw [h1]
    unfold envAt
    by_cases hj : j < ins.dim
    · rw [if_pos hj, if_pos hj, hsent, if_pos rfl]
    · rw [if_neg hj, if_neg hj, hsame j hj]
  have hsentOld : (∀ j, j < ins.dim → (ins.at_ j).cons ≠ [] → cfg.n ≤ l.runs → getState l'.swarm j =
        total (ins.at_ j).cons (envAt ins s0 l'.sent (l.runs / cfg.n * cfg.n - 1))) →
      ∀ k, k < l'.runs → cfg.n ≤ k → ∀ j, j < ins.dim → (ins.at_ j).cons ≠ [] →
      l'.sent k j = total (ins.at_ j).cons (envAt ins s0 l'.sent (k / cfg.n * cfg.n - 1)) := by
    intro hnew k hk hkn j hj hcj
    rw [hsent]
    by_cases hkr : k = l.runs
    · rw [if_pos hkr, hkr]
      exact hnew j hj hcj (hkr ▸ hkn)
    · rw [if_neg hkr, h.sent k (by omega) hkn j hj hcj, henvAt _ (by
        have := Nat.div_mul_le_self k cfg.n
        omega)]
  rcases h.counted with ⟨h0, hf⟩ | ⟨e, r, ha⟩
  · have hr : l.swarm.run + 1 < (cfg.n : Int) := by rw [hf.2.1]; omega
    obtain ⟨g1, g2, g3, g4, g5, g6, g7, g8⟩ := dispatch_same (ins := ins) rnd l.swarm hr
    refine ⟨hc', henv (by rw [hl']; exact g8), fun e r ha' he => ?_, hsentOld (fun j hj hcj hle => ?_)⟩
    · have := (At.unique ha' (at_first hn h0 hf rnd l' hs)).1
      omega
    · omega
  · by_cases hr : r + 1 < cfg.n
    · have hr' : l.swarm.run + 1 < (cfg.n : Int) := by rw [ha.run]; omega
      obtain ⟨g1, g2, g3, g4, g5, g6, g7, g8⟩ := dispatch_same (ins := ins) rnd l.swarm hr'
      have hat := at_same ha hr rnd l' hs
      have hpos : 0 < e → ∀ i, i < cfg.n → ∀ j, j < ins.dim → (ins.at_ j).cons ≠ [] →
          (l'.swarm.parts i).cur.pos j =
            total (ins.at_ j).cons (envAt ins s0 l'.sent (e * cfg.n - 1)) := by
        intro he i hi j hj hcj
        have h1 : (l'.swarm.parts i).cur.pos = (l.swarm.parts i).cur.pos := by
          rw [hl']; exact (g7 i).2.2.1
        rw [h1, h.pos e r ha he i hi j hj hcj, henvAt _ (by rw [ha.runs]; omega)]
      refine ⟨hc', henv (by rw [hl']; exact g8), fun e' r' ha' he => ?_, hsentOld (fun j hj hcj hle => ?_)⟩
      · have := (At.unique ha' hat).1
        subst this
        exact hpos he
      · have he : 0 < e := by
          rcases Nat.eq_zero_or_pos e with he | he
          · subst he; rw [ha.runs] at hle; omega
          · exact he
        have hdiv : l.runs / cfg.n = e := by
          rw [ha.runs, show e * cfg.n + r + 1 = (r + 1) + e * cfg.n by ring,
            Nat.add_mul_div_right _ _ hn, Nat.div_eq_of_lt hr, Nat.zero_add]
        rw [hdiv]
        unfold getState
        exact hpos he _ (by rw [hat.active]; exact hr) j hj hcj
    · have hr2 : r + 1 = cfg.n := by have := ha.lt; omega
      have hr' : (cfg.n : Int) ≤ l.swarm.run + 1 := by rw [ha.run]; omega
      obtain ⟨g1, g2, g3, g4, g5, g6, g7, g8⟩ := dispatch_new (ins := ins) rnd l.swarm hr'
      have hat := at_new ha hr2 rnd l' hs
      have hm : (e + 1) * cfg.n = l.runs := by rw [ha.runs, ← hr2]; ring
      have hpos : ∀ i, i < cfg.n → ∀ j, j < ins.dim → (ins.at_ j).cons ≠ [] →
          (l'.swarm.parts i).cur.pos j =
            total (ins.at_ j).cons (envAt ins s0 l'.sent ((e + 1) * cfg.n - 1)) := by
        intro i hi j hj hcj
        have h1 : (l'.swarm.parts i).cur.pos j = total (ins.at_ j).cons l.swarm.env := by
          rw [hl']
          simp only
          rw [(g7 i).2.2.1]
          exact propagate_constrained _ rnd _ hi hj hcj
        have hpos' : 0 < l.runs := by rw [ha.runs]; omega
        rw [h1, h.env, if_neg (by omega), hm, henvAt _ (by omega)]
      refine ⟨hc', henv (by rw [hl']; exact g8), fun e' r' ha' he => ?_, hsentOld (fun j hj hcj hle => ?_)⟩
      · have := (At.unique ha' hat).1
        subst this
        exact hpos
      · have hdiv : l.runs / cfg.n = e + 1 := by rw [← hm, Nat.mul_div_cancel _ hn]
        rw [hdiv]
        unfold getState
        exact hpos _ (by rw [hat.active]; exact hn) j hj hcj

theorem cons_exec {s0 : Swarm K} (hn : 0 < cfg.n) (hf : Fresh s0)
    (t : List (Ev K)) (l : Log K) (h : exec cfg ins (Log.fresh s0) t = some l) :
    ConsInv cfg ins s0 l := by
  refine exec_inv (fun _ l => ConsInv cfg ins s0 l) (Log.fresh s0) ?_ (fun t e l1 l2 h1 h2 => ?_) t l h
  · refine ⟨Or.inl ⟨rfl, hf⟩, rfl, fun e r ha => ?_, fun k hk => absurd hk (Nat.not_lt_zero _)⟩
    have := ha.runs
    simp only [Log.fresh] at this
    omega
  · cases e with
    | run rnd => exact cons_run hn h1 rnd h2
    | back id v =>
      obtain ⟨f1, f2, f3, f4, f5, f6, f7, f8, f9⟩ := back_fields h2
      refine ⟨counted_step hn h1.counted _ h2, by rw [f9, f1, f2, h1.env], fun e r ha he i hi j hj hc => ?_,
        fun k hk => ?_⟩
      · rw [(back_parts h2 i).2.1, f2]
        rcases h1.counted with ⟨h0, _⟩ | ⟨e', r', ha'⟩
        · have := ha.runs
          rw [f1, h0] at this
          omega
        · have := (At.unique ha (at_back_at h2 ha')).1
          subst this
          exact h1.pos _ r' ha' he i hi j hj hc
      · rw [f2]; rw [f1] at hk; exact h1.sent k hk

end Gunns.Optim
