import Verif.Optim.DescentTimely
import Mathlib.Algebra.BigOperators.Group.Finset.Basic
import Mathlib.Algebra.BigOperators.Ring.Finset
import Mathlib.Algebra.Order.BigOperators.Group.Finset

/-!
# C51: the gradient descent optimizer

Runs are numbered in the order they are sent out; `l.sent k` is the state run `k` was given.  With `n` inputs
an epoch has `2 n + 1` runs.
-/

set_option linter.unusedSectionVars false

namespace Gunns.Props

open Gunns.Elements Gunns.Optim Gunns.Optim.Descent Gunns.Optim.Descent.Spec

variable {K : Type _} [Field K] [LinearOrder K] [IsStrictOrderedRing K]
variable {cfg : Optim.Descent.Config K} {ins : Inputs K}

theorem descent_validate : Descent.validate cfg ins = true ↔
    1 ≤ ins.dim ∧ (∀ j, j < ins.dim → (ins.at_ j).min < (ins.at_ j).max) ∧ 1 ≤ cfg.numVars ∧
      1 ≤ cfg.maxEpoch := by
  unfold Descent.validate
  simp only [Bool.and_eq_true, Bool.not_eq_true', decide_eq_false_iff_not, not_lt, List.all_eq_true,
    List.mem_range, not_le, and_assoc]

theorem descent_init {d : Desc K} (h : Descent.init cfg ins = some d) :
    Ranged ins ∧ Descent.Fresh d ∧ cfg.numVars ≤ ins.dim ∧ 1 ≤ cfg.maxEpoch ∧
    (∀ j, j < ins.dim → (ins.at_ j).min < (ins.at_ j).max) ∧
    d.glob.state = startState cfg ins := by
  unfold Descent.init at h
  split_ifs at h with h1 h2
  rw [← Option.some.inj h]
  obtain ⟨v1, v2, v3, v4⟩ := descent_validate.1 h1
  exact ⟨⟨v1, fun i hi => (v2 i hi).le⟩, ⟨rfl, rfl, rfl, by simp [probe0], fun p => by simp [probe0]⟩,
    h2, v4, v2, rfl⟩

/-- **C51, start.** Start-up succeeds exactly if there are inputs, each with room between its bounds, and at
    least one and at most as many variables as inputs and at least one epoch are configured.  The first state
    is the configured one, moved into the bounds. -/
theorem c51_init :
    ((∃ d, Descent.init cfg ins = some d) ↔
      1 ≤ ins.dim ∧ (∀ j, j < ins.dim → (ins.at_ j).min < (ins.at_ j).max) ∧
      1 ≤ cfg.numVars ∧ cfg.numVars ≤ ins.dim ∧ 1 ≤ cfg.maxEpoch) ∧
    ∀ d, Descent.init cfg ins = some d → ∀ i, i < cfg.numVars →
      d.glob.state i = clip (ins.at_ i).min (ins.at_ i).max (cfg.start i) := by
  constructor
  · constructor
    · rintro ⟨d, hd⟩
      unfold Descent.init at hd
      split_ifs at hd with h1 h2
      obtain ⟨v1, v2, v3, v4⟩ := descent_validate.1 h1
      exact ⟨v1, v2, v3, h2, v4⟩
    · rintro ⟨v1, v2, v3, h2, v4⟩
      unfold Descent.init
      rw [if_pos (descent_validate.2 ⟨v1, v2, v3, v4⟩), if_pos h2]
      exact ⟨_, rfl⟩
  · intro d hd i hi
    obtain ⟨hin, _, hle, _, _, hg⟩ := descent_init hd
    rw [hg]
    unfold startState
    rw [if_pos hi, limitRange_clip (hin.2 i (by omega))]

/-- **C51, order of runs.** Whatever results come back, run `0` is the first state, and in every epoch the run
    after the first `1 + p` runs is trial `p` of the epoch's first: input `p / 2` increased or decreased, all
    other inputs as they are.  Epochs and runs are numbered in step. -/
theorem c51_counters (d : Desc K) (hd : Descent.init cfg ins = some d) (t : List (Descent.Ev K))
    (l : Descent.Log K) (hid : ∀ id v, Descent.Ev.back id v ∈ t → 0 ≤ id)
    (h : Descent.exec cfg ins (Descent.Log.fresh d) t = some l) (hpos : 0 < sentIn t) :
    l.runs = sentIn t ∧ l.sent 0 = d.glob.state ∧
    l.desc.globalRun = (l.runs : Int) - 1 ∧
    l.desc.epoch = (((l.runs - 1) / (2 * ins.dim + 1) : Nat) : Int) + 1 ∧
    ∀ k, k < l.runs → k % (2 * ins.dim + 1) ≠ 0 →
      l.sent k = trialOf (lows ins) (highs ins) (l.sent (k / (2 * ins.dim + 1) * (2 * ins.dim + 1)))
        (k % (2 * ins.dim + 1) - 1) := by
  obtain ⟨hin, hf, -, -, -, -⟩ := descent_init hd
  have hr := Descent.runs_eq _ t l h
  simp only [Descent.Log.fresh, Nat.zero_add] at hr
  rcases counted_exec hin hf t l hid h with ⟨h0, _⟩ | ⟨ht, hz, e, r, ha⟩
  · omega
  · refine ⟨hr, hz, by rw [ha.globalRun, ha.runs]; push_cast; ring, ?_, fun k hk hm => ?_⟩
    · have he : (l.runs - 1) / (2 * ins.dim + 1) = e := by
        have := ha.le
        rw [ha.runs, Nat.add_sub_cancel, Nat.mul_comm, Nat.mul_add_div (by omega),
          Nat.div_eq_of_lt (by omega), Nat.add_zero]
      rw [he, ha.epoch]; push_cast; ring
    · have h1 := Nat.div_add_mod k (2 * ins.dim + 1)
      rw [Nat.mul_comm] at h1
      have h2 := Nat.mod_lt k (show 0 < 2 * ins.dim + 1 by omega)
      have h3 := ht (k / (2 * ins.dim + 1)) (k % (2 * ins.dim + 1) - 1) (by omega) (by omega)
      rw [← h3]
      congr 1
      omega

/-- **C51, results.** A result is accepted exactly if it is that of one of the last `2 n + 1` runs sent out;
    any other throws. -/
theorem c51_result (d : Desc K) (hd : Descent.init cfg ins = some d) (t : List (Descent.Ev K))
    (l : Descent.Log K) (hid : ∀ id v, Descent.Ev.back id v ∈ t → 0 ≤ id)
    (h : Descent.exec cfg ins (Descent.Log.fresh d) t = some l) (k : Nat) (v : K) :
    (∃ l', Descent.step cfg ins l (.back (k : Int) v) = some l') ↔
      k < sentIn t ∧ sentIn t ≤ k + (2 * ins.dim + 1) := by
  obtain ⟨hin, hf, -, -, -, -⟩ := descent_init hd
  have hr := Descent.runs_eq _ t l h
  simp only [Descent.Log.fresh, Nat.zero_add] at hr
  rw [← hr]
  rcases counted_exec hin hf t l hid h with ⟨h0, hd0⟩ | ⟨ht, hz, e, r, ha⟩
  · rw [Descent.fresh_back (hd0 ▸ hf) (Int.natCast_nonneg k)]
    constructor
    · rintro ⟨l', h'⟩; exact absurd h' (by simp)
    · omega
  · exact accept_iff ha k v

/-- **C51, step.** With results in time nothing is thrown, and every epoch starts from the state the one before
    leads to: each input moves by `gain / n` times the way to where the line through the costs of the state and
    of its better trial reaches zero, if that trial is cheaper than the state, and is then moved into the
    bounds. -/
theorem c51_step (d : Desc K) (hd : Descent.init cfg ins = some d) (c : Nat → K) (t : List (Descent.Ev K))
    (ht : Descent.Spec.Timely (2 * ins.dim + 1) c t) :
    ∃ l, Descent.exec cfg ins (Descent.Log.fresh d) t = some l ∧ l.runs = sentIn t ∧
      ∀ e, (e + 1) * (2 * ins.dim + 1) < l.runs → ∀ i, i < ins.dim →
        l.sent ((e + 1) * (2 * ins.dim + 1)) i =
          next ins.dim cfg.gain (lows ins) (highs ins) (l.sent (e * (2 * ins.dim + 1)))
            (c (e * (2 * ins.dim + 1))) (fun p => c (e * (2 * ins.dim + 1) + 1 + p)) i := by
  obtain ⟨hin, hf, -, -, -, -⟩ := descent_init hd
  obtain ⟨l, hl, hs⟩ := Descent.timely_exec (cfg := cfg) hin hf t ht
  have hr := Descent.runs_eq _ t l hl
  simp only [Descent.Log.fresh, Nat.zero_add] at hr
  refine ⟨l, hl, hr, ?_⟩
  rcases hs with ⟨h0, _⟩ | ⟨_, hst, _⟩
  · intro e he
    omega
  · exact hst

theorem clip_mem {lo hi : K} (h : lo ≤ hi) (x : K) : lo ≤ clip lo hi x ∧ clip lo hi x ≤ hi := by
  unfold clip
  split_ifs with h1 h2
  · exact ⟨le_refl _, h⟩
  · exact ⟨h, le_refl _⟩
  · exact ⟨not_lt.1 h1, not_lt.1 h2⟩

theorem clip_id {lo hi x : K} (h1 : lo ≤ x) (h2 : x ≤ hi) : clip lo hi x = x := by
  unfold clip
  rw [if_neg (not_lt.2 h1), if_neg (not_lt.2 h2)]

/-- A state within the bounds. -/
def InBounds (ins : Inputs K) (x : Nat → K) : Prop :=
  ∀ i, i < ins.dim → (ins.at_ i).min ≤ x i ∧ x i ≤ (ins.at_ i).max

theorem trial_bounds (hin : Ranged ins) {x : Nat → K} (hx : InBounds ins x) {p : Nat} :
    InBounds ins (trialOf (lows ins) (highs ins) x p) := by
  intro i hi
  unfold trialOf lows highs
  by_cases hip : i = p / 2
  · subst hip
    rw [Function.update_self]
    split_ifs
    · exact clip_mem (hin.2 _ hi) _
    · exact clip_mem (hin.2 _ hi) _
  · rw [Function.update_of_ne hip]
    exact hx i hi

theorem descent_bounds (hin : Ranged ins) {d0 : Desc K} (hf : Descent.Fresh d0) (hb0 : InBounds ins d0.glob.state)
    (t : List (Descent.Ev K)) (l : Descent.Log K) (hid : ∀ id v, Descent.Ev.back id v ∈ t → 0 ≤ id)
    (h : Descent.exec cfg ins (Descent.Log.fresh d0) t = some l) (k : Nat) (hk : k < l.runs) :
    InBounds ins (l.sent k) := by
  have key : Descent.Counted ins d0 l ∧ ∀ e, e * (2 * ins.dim + 1) < l.runs →
      InBounds ins (l.sent (e * (2 * ins.dim + 1))) := by
    refine Descent.exec_inv (fun t l => (∀ id v, Descent.Ev.back id v ∈ t → 0 ≤ id) → Descent.Counted ins d0 l ∧
      ∀ e, e * (2 * ins.dim + 1) < l.runs → InBounds ins (l.sent (e * (2 * ins.dim + 1))))
      (Descent.Log.fresh d0)
      (fun _ => ⟨Or.inl ⟨rfl, rfl⟩, fun e he => absurd he (Nat.not_lt_zero _)⟩)
      (fun t ev l1 l2 h1 h2 h3 => ?_) t l h hid
    obtain ⟨c1, b1⟩ := h1 (fun id v hm => h3 id v (List.mem_append_left _ hm))
    refine ⟨Descent.counted_step hin hf c1 ev (fun id v he => h3 id v (by rw [he]; simp)) h2, ?_⟩
    cases ev with
    | back id v =>
      rw [(Descent.back_some h2).1, (Descent.back_some h2).2.1]
      exact b1
    | run =>
      have hruns : l2.runs = l1.runs + 1 := by
        simp only [Descent.step, Option.some.injEq] at h2; rw [← h2]
      rcases c1 with ⟨h0, hd⟩ | ⟨ht, hs, e, r, ha⟩
      · obtain ⟨a1, a2, a3⟩ := Descent.at_first h0 (hd ▸ hf) h2
        intro e he
        have : e * (2 * ins.dim + 1) = 0 := by omega
        rw [this, a3, hd]
        exact hb0
      · by_cases hr : r < 2 * ins.dim
        · obtain ⟨a1, a2, a3, _⟩ := Descent.at_same hin ha ht hr h2
          intro e' he'
          have hlt : e' * (2 * ins.dim + 1) < l1.runs := by
            rcases Nat.lt_or_ge (e' * (2 * ins.dim + 1)) l1.runs with h4 | h4
            · exact h4
            · exfalso
              have heq : e' * (2 * ins.dim + 1) + 0 = e * (2 * ins.dim + 1) + (r + 1) := by
                have := ha.runs; omega
              have h5 := congrArg (· % (2 * ins.dim + 1)) heq
              simp only [Nat.mul_add_mod_self_right, Nat.zero_mod] at h5
              rw [Nat.mod_eq_of_lt (by omega)] at h5
              omega
          rw [a3 _ hlt]
          exact b1 e' hlt
        · have hr' : r = 2 * ins.dim := by have := ha.le; omega
          obtain ⟨a1, a2, a3, a4⟩ := Descent.at_new hin ha ht hr' h2
          have hm : (e + 1) * (2 * ins.dim + 1) = l1.runs := by rw [ha.runs, hr']; ring
          intro e' he'
          rcases Nat.lt_or_ge (e' * (2 * ins.dim + 1)) l1.runs with hlt | hge
          · rw [a3 _ hlt]; exact b1 e' hlt
          · have heq : e' * (2 * ins.dim + 1) = (e + 1) * (2 * ins.dim + 1) := by omega
            rw [heq, a4]
            intro i hi
            unfold Descent.propagate
            simp only [if_pos hi]
            rw [limitRange_clip (hin.2 i hi)]
            exact clip_mem (hin.2 i hi) _
  obtain ⟨c1, b1⟩ := key
  rcases c1 with ⟨h0, _⟩ | ⟨ht, _, e, r, ha⟩
  · omega
  · have h1 := Nat.div_add_mod k (2 * ins.dim + 1)
    rw [Nat.mul_comm] at h1
    have hb := b1 (k / (2 * ins.dim + 1)) (by omega)
    by_cases hm : k % (2 * ins.dim + 1) = 0
    · rw [hm, Nat.add_zero] at h1
      rw [h1] at hb
      exact hb
    · have h2 := Nat.mod_lt k (show 0 < 2 * ins.dim + 1 by omega)
      have h3 := ht (k / (2 * ins.dim + 1)) (k % (2 * ins.dim + 1) - 1) (by omega) (by omega)
      rw [show k / (2 * ins.dim + 1) * (2 * ins.dim + 1) + 1 + (k % (2 * ins.dim + 1) - 1) = k by omega] at h3
      rw [h3]
      exact trial_bounds hin hb

/-- **C51, bounds.** If as many variables as inputs are configured, every state ever sent out is within the
    bounds, whatever results come back and whenever. -/
theorem c51_range (d : Desc K) (hd : Descent.init cfg ins = some d) (hn : cfg.numVars = ins.dim)
    (t : List (Descent.Ev K)) (l : Descent.Log K) (hid : ∀ id v, Descent.Ev.back id v ∈ t → 0 ≤ id)
    (h : Descent.exec cfg ins (Descent.Log.fresh d) t = some l) (k : Nat) (hk : k < sentIn t) (i : Nat)
    (hi : i < ins.dim) : (ins.at_ i).min ≤ l.sent k i ∧ l.sent k i ≤ (ins.at_ i).max := by
  obtain ⟨hin, hf, -, -, -, hs⟩ := descent_init hd
  have hr := Descent.runs_eq _ t l h
  simp only [Descent.Log.fresh, Nat.zero_add] at hr
  refine descent_bounds hin hf ?_ t l hid h k (by omega) i hi
  intro j hj
  rw [hs]
  unfold startState
  rw [if_pos (by omega), limitRange_clip (hin.2 j hj)]
  exact clip_mem (hin.2 j hj) _

/-- **C51, standstill.** An input neither of whose trials is cheaper than the state stays as it is. -/
theorem c51_stall (d : Desc K) (hd : Descent.init cfg ins = some d) (hn : cfg.numVars = ins.dim) (c : Nat → K)
    (t : List (Descent.Ev K)) (ht : Descent.Spec.Timely (2 * ins.dim + 1) c t) (l : Descent.Log K)
    (hl : Descent.exec cfg ins (Descent.Log.fresh d) t = some l) (e : Nat)
    (he : (e + 1) * (2 * ins.dim + 1) < sentIn t) (i : Nat) (hi : i < ins.dim)
    (hup : c (e * (2 * ins.dim + 1)) ≤ c (e * (2 * ins.dim + 1) + 1 + 2 * i))
    (hdn : c (e * (2 * ins.dim + 1)) ≤ c (e * (2 * ins.dim + 1) + 1 + (2 * i + 1))) :
    l.sent ((e + 1) * (2 * ins.dim + 1)) i = l.sent (e * (2 * ins.dim + 1)) i := by
  obtain ⟨l', hl', hr, hst⟩ := c51_step d hd c t ht
  rw [hl] at hl'
  obtain rfl := Option.some.inj hl'
  have hlt : e * (2 * ins.dim + 1) < sentIn t :=
    lt_of_le_of_lt (Nat.mul_le_mul_right _ (Nat.le_succ e)) he
  have hb := c51_range d hd hn t l ht.nonneg hl _ hlt i hi
  rw [hst e (by omega) i hi]
  unfold next move
  rw [if_neg (fun h => absurd h.1.1 (not_lt.2 hdn)), if_neg (fun h => absurd h.1 (not_lt.2 hup)), mul_zero,
    add_zero]
  exact clip_id hb.1 hb.2

theorem clip_le {lo hi x y : K} (h1 : lo ≤ x) (h : y ≤ x) : clip lo hi y ≤ x := by
  unfold clip
  split_ifs with h2 h3
  · exact h1
  · exact h3.le.trans h
  · exact h

theorem le_clip {lo hi x y : K} (h1 : x ≤ hi) (h : x ≤ y) : x ≤ clip lo hi y := by
  unfold clip
  split_ifs with h2 h3
  · exact h.trans h2.le
  · exact h1
  · exact h

theorem trial_nonneg {lo hi : K} (h : lo ≤ hi) (x : K) : 0 ≤ trial lo hi x := by
  unfold trial
  split_ifs
  · exact div_nonneg (sub_nonneg.2 h) (by norm_num)
  · exact div_nonneg (abs_nonneg x) (by norm_num)

theorem toZero_factor {c cT : K} (hc : 0 ≤ c) (h : cT < c) : 0 ≤ c / (c - cT) :=
  div_nonneg hc (by linarith)

/-- **C51, direction.** With a positive gain and costs that are not negative, an input grows only if increasing
    it was cheaper than the state, and falls only if decreasing it was cheaper than the state and than
    increasing it. -/
theorem c51_direction (d : Desc K) (hd : Descent.init cfg ins = some d) (hn : cfg.numVars = ins.dim)
    (hg : 0 ≤ cfg.gain) (c : Nat → K)
    (t : List (Descent.Ev K)) (ht : Descent.Spec.Timely (2 * ins.dim + 1) c t) (l : Descent.Log K)
    (hl : Descent.exec cfg ins (Descent.Log.fresh d) t = some l) (e : Nat)
    (he : (e + 1) * (2 * ins.dim + 1) < sentIn t) (i : Nat) (hi : i < ins.dim)
    (hc : 0 ≤ c (e * (2 * ins.dim + 1))) :
    (l.sent (e * (2 * ins.dim + 1)) i < l.sent ((e + 1) * (2 * ins.dim + 1)) i →
      c (e * (2 * ins.dim + 1) + 1 + 2 * i) < c (e * (2 * ins.dim + 1))) ∧
    (l.sent ((e + 1) * (2 * ins.dim + 1)) i < l.sent (e * (2 * ins.dim + 1)) i →
      c (e * (2 * ins.dim + 1) + 1 + (2 * i + 1)) < c (e * (2 * ins.dim + 1)) ∧
      c (e * (2 * ins.dim + 1) + 1 + (2 * i + 1)) < c (e * (2 * ins.dim + 1) + 1 + 2 * i)) := by
  obtain ⟨l', hl', hr, hst⟩ := c51_step d hd c t ht
  rw [hl] at hl'
  obtain rfl := Option.some.inj hl'
  have hlt : e * (2 * ins.dim + 1) < sentIn t :=
    lt_of_le_of_lt (Nat.mul_le_mul_right _ (Nat.le_succ e)) he
  obtain ⟨b1, b2⟩ := c51_range d hd hn t l ht.nonneg hl _ hlt i hi
  have hin := (descent_init hd).1
  rw [hst e (by omega) i hi]
  obtain ⟨x, hx⟩ : ∃ x, x = l.sent (e * (2 * ins.dim + 1)) i := ⟨_, rfl⟩
  obtain ⟨cu, hcu⟩ : ∃ cu, cu = c (e * (2 * ins.dim + 1) + 1 + 2 * i) := ⟨_, rfl⟩
  obtain ⟨cd, hcd⟩ : ∃ cd, cd = c (e * (2 * ins.dim + 1) + 1 + (2 * i + 1)) := ⟨_, rfl⟩
  obtain ⟨c0, hc0⟩ : ∃ c0, c0 = c (e * (2 * ins.dim + 1)) := ⟨_, rfl⟩
  unfold next
  simp only [← hx, ← hcu, ← hcd, ← hc0] at b1 b2 hc ⊢
  have hgn : 0 ≤ cfg.gain / ((ins.dim : Nat) : K) := div_nonneg hg (Nat.cast_nonneg _)
  have htr := trial_nonneg (hin.2 i hi) x
  have hup : 0 ≤ up (ins.at_ i).min (ins.at_ i).max x - x :=
    sub_nonneg.2 (le_clip b2 (by linarith))
  have hdn : down (ins.at_ i).min (ins.at_ i).max x - x ≤ 0 :=
    sub_nonpos.2 (clip_le b1 (by linarith))
  unfold lows highs
  unfold move
  split_ifs with g1 g2
  · refine ⟨fun h => ?_, fun _ => ⟨g1.1.1, g1.2⟩⟩
    exfalso
    have h1 : toZero c0 cd (down (ins.at_ i).min (ins.at_ i).max x - x) ≤ 0 :=
      mul_nonpos_of_nonpos_of_nonneg hdn (toZero_factor hc g1.1.1)
    have h2 := mul_nonpos_of_nonneg_of_nonpos hgn h1
    exact absurd h (not_lt.2 (clip_le b1 (by linarith)))
  · refine ⟨fun _ => g2.1, fun h => ?_⟩
    exfalso
    have h1 : 0 ≤ toZero c0 cu (up (ins.at_ i).min (ins.at_ i).max x - x) :=
      mul_nonneg hup (toZero_factor hc g2.1)
    have h2 := mul_nonneg hgn h1
    exact absurd h (not_lt.2 (le_clip b2 (by linarith)))
  · rw [mul_zero, add_zero, clip_id b1 b2]
    exact ⟨fun h => absurd h (lt_irrefl _), fun h => absurd h (lt_irrefl _)⟩

theorem sum_update (n : Nat) (a x : Nat → K) {i : Nat} (hi : i < n) (v : K) :
    ∑ j ∈ Finset.range n, a j * Function.update x i v j =
      (∑ j ∈ Finset.range n, a j * x j) + a i * (v - x i) := by
  have : ∀ j ∈ Finset.range n, a j * Function.update x i v j =
      a j * x j + if j = i then a i * (v - x i) else 0 := by
    intro j _
    by_cases hj : j = i
    · subst hj
      rw [Function.update_self, if_pos rfl]; ring
    · rw [Function.update_of_ne hj, if_neg hj, add_zero]
  rw [Finset.sum_congr rfl this, Finset.sum_add_distrib, Finset.sum_ite_eq', if_pos (Finset.mem_range.2 hi)]

/-- **C51, affine cost.** If the cost is affine in the inputs and depends on each of them, and no bound gets in
    the way, an epoch multiplies the cost by `1 - gain`: a gain of one brings it to zero at once. -/
theorem c51_affine (d : Desc K) (hd : Descent.init cfg ins = some d) (c : Nat → K)
    (t : List (Descent.Ev K)) (ht : Descent.Spec.Timely (2 * ins.dim + 1) c t) (l : Descent.Log K)
    (hl : Descent.exec cfg ins (Descent.Log.fresh d) t = some l) (e : Nat)
    (he : (e + 1) * (2 * ins.dim + 1) < sentIn t) (a : Nat → K) (b : K)
    (hcost : ∀ k, k < sentIn t → c k = b + ∑ i ∈ Finset.range ins.dim, a i * l.sent k i)
    (ha : ∀ i, i < ins.dim → a i ≠ 0)
    (hin1 : ∀ i, i < ins.dim → ∀ x, x = l.sent (e * (2 * ins.dim + 1)) i →
      dblEps < trial (ins.at_ i).min (ins.at_ i).max x ∧
      (ins.at_ i).min ≤ x - trial (ins.at_ i).min (ins.at_ i).max x ∧
      x + trial (ins.at_ i).min (ins.at_ i).max x ≤ (ins.at_ i).max ∧
      (ins.at_ i).min ≤ x - cfg.gain / ((ins.dim : Nat) : K) * (c (e * (2 * ins.dim + 1)) / a i) ∧
      x - cfg.gain / ((ins.dim : Nat) : K) * (c (e * (2 * ins.dim + 1)) / a i) ≤ (ins.at_ i).max) :
    c ((e + 1) * (2 * ins.dim + 1)) = (1 - cfg.gain) * c (e * (2 * ins.dim + 1)) := by
  obtain ⟨l', hl', hr, hst⟩ := c51_step d hd c t ht
  rw [hl] at hl'
  obtain rfl := Option.some.inj hl'
  have hin := (descent_init hd).1
  have hpos : 0 < ins.dim := hin.1
  have hm : (e + 1) * (2 * ins.dim + 1) = e * (2 * ins.dim + 1) + (2 * ins.dim + 1) := by ring
  obtain ⟨m, hmm⟩ : ∃ m, m = e * (2 * ins.dim + 1) := ⟨_, rfl⟩
  have htr : ∀ p, p < 2 * ins.dim → l.sent (m + 1 + p) = trialOf (lows ins) (highs ins) (l.sent m) p := by
    intro p hp
    obtain ⟨_, _, _, _, hk⟩ := c51_counters d hd t l ht.nonneg hl (by omega)
    have hmod : (m + 1 + p) % (2 * ins.dim + 1) = 1 + p := by
      rw [hmm, Nat.add_assoc, Nat.mul_comm, Nat.mul_add_mod, Nat.mod_eq_of_lt (by omega)]
    have hdiv : (m + 1 + p) / (2 * ins.dim + 1) = e := by
      rw [hmm, Nat.add_assoc, Nat.mul_comm, Nat.mul_add_div (by omega), Nat.div_eq_of_lt (by omega), Nat.add_zero]
    have := hk (m + 1 + p) (by omega) (by omega)
    rw [hmod, hdiv, ← hmm, Nat.add_sub_cancel_left] at this
    exact this
  have hnext : ∀ i, i < ins.dim → l.sent ((e + 1) * (2 * ins.dim + 1)) i =
      l.sent m i - cfg.gain / ((ins.dim : Nat) : K) * (c m / a i) := by
    intro i hi
    obtain ⟨g1, g2, g3, g4, g5⟩ := hin1 i hi _ rfl
    rw [hst e (by omega) i hi]
    rw [← hmm] at g1 g2 g3 g4 g5 ⊢
    have hdel := g1
    have hup : up (ins.at_ i).min (ins.at_ i).max (l.sent m i) - l.sent m i =
        trial (ins.at_ i).min (ins.at_ i).max (l.sent m i) := by
      unfold up
      rw [clip_id (by have := dblEps_pos (K := K); linarith) g3]; ring
    have hdn : down (ins.at_ i).min (ins.at_ i).max (l.sent m i) - l.sent m i =
        -trial (ins.at_ i).min (ins.at_ i).max (l.sent m i) := by
      unfold down
      rw [clip_id g2 (by have := dblEps_pos (K := K); linarith)]; ring
    have hcu : c (m + 1 + 2 * i) = c m + a i * trial (ins.at_ i).min (ins.at_ i).max (l.sent m i) := by
      rw [hcost _ (by omega), hcost m (by omega), htr (2 * i) (by omega)]
      unfold trialOf lows highs
      rw [show 2 * i / 2 = i by omega, if_pos (by omega), sum_update _ _ _ hi, hup]; ring
    have hcd : c (m + 1 + (2 * i + 1)) = c m - a i * trial (ins.at_ i).min (ins.at_ i).max (l.sent m i) := by
      rw [hcost _ (by omega), hcost m (by omega), htr (2 * i + 1) (by omega)]
      unfold trialOf lows highs
      rw [show (2 * i + 1) / 2 = i by omega, if_neg (by omega), sum_update _ _ _ hi, hdn]; ring
    unfold next lows highs
    simp only [hcu, hcd]
    obtain ⟨δ, hδ⟩ : ∃ δ, δ = trial (ins.at_ i).min (ins.at_ i).max (l.sent m i) := ⟨_, rfl⟩
    rw [← hδ] at hup hdn hdel ⊢
    have hδ0 : 0 < δ := lt_trans dblEps_pos hdel
    have hmove : move (ins.at_ i).min (ins.at_ i).max (l.sent m i) (c m) (c m + a i * δ) (c m - a i * δ) =
        -(c m / a i) := by
      unfold move Helps toZero
      rw [hup, hdn, abs_neg, abs_of_pos hδ0]
      have ha0 := ha i hi
      rcases lt_or_gt_of_ne ha0 with hneg | hpos'
      · have h1 := mul_neg_of_neg_of_pos hneg hδ0
        rw [if_neg (by rintro ⟨⟨h2, _⟩, _⟩; linarith), if_pos ⟨by linarith, hdel⟩]
        have : c m - (c m + a i * δ) = -(a i * δ) := by ring
        rw [this]
        field_simp
      · have h1 := mul_pos hpos' hδ0
        rw [if_pos ⟨⟨by linarith, hdel⟩, by linarith⟩]
        have : c m - (c m - a i * δ) = a i * δ := by ring
        rw [this]
        field_simp
    rw [hmove]
    have : l.sent m i + cfg.gain / ((ins.dim : Nat) : K) * -(c m / a i) =
        l.sent m i - cfg.gain / ((ins.dim : Nat) : K) * (c m / a i) := by ring
    rw [this]
    exact clip_id g4 g5
  have hd0 : ((ins.dim : Nat) : K) ≠ 0 := Nat.cast_ne_zero.2 (by omega)
  rw [hcost _ he, ← hmm]
  have hsum : ∑ i ∈ Finset.range ins.dim, a i * l.sent ((e + 1) * (2 * ins.dim + 1)) i =
      (∑ i ∈ Finset.range ins.dim, a i * l.sent m i) - cfg.gain * c m := by
    have h1 : ∀ i ∈ Finset.range ins.dim, a i * l.sent ((e + 1) * (2 * ins.dim + 1)) i =
        a i * l.sent m i - cfg.gain / ((ins.dim : Nat) : K) * c m := by
      intro i hi
      have hi' := Finset.mem_range.1 hi
      rw [hnext i hi', mul_sub]
      congr 1
      have := ha i hi'
      field_simp
    rw [Finset.sum_congr rfl h1, Finset.sum_sub_distrib, Finset.sum_const, Finset.card_range, nsmul_eq_mul]
    congr 1
    field_simp
  rw [hsum]
  have := hcost m (by omega)
  rw [sub_mul, one_mul, ← add_sub_assoc, ← this]

/-- **C51, frozen inputs.** An input that comes within `1000 DBL_EPSILON` of zero without being zero never
    moves again: its trials are too small to count. -/
theorem c51_frozen (d : Desc K) (hd : Descent.init cfg ins = some d) (hn : cfg.numVars = ins.dim)
    (c : Nat → K) (t : List (Descent.Ev K)) (ht : Descent.Spec.Timely (2 * ins.dim + 1) c t)
    (l : Descent.Log K) (hl : Descent.exec cfg ins (Descent.Log.fresh d) t = some l) (e : Nat) (i : Nat)
    (hi : i < ins.dim) (h0 : l.sent (e * (2 * ins.dim + 1)) i ≠ 0)
    (hsmall : |l.sent (e * (2 * ins.dim + 1)) i| ≤ 1000 * dblEps) (e' : Nat) (hee : e ≤ e')
    (he' : e' * (2 * ins.dim + 1) < sentIn t) :
    l.sent (e' * (2 * ins.dim + 1)) i = l.sent (e * (2 * ins.dim + 1)) i := by
  obtain ⟨l', hl', hr, hst⟩ := c51_step d hd c t ht
  rw [hl] at hl'
  obtain rfl := Option.some.inj hl'
  induction e', hee using Nat.le_induction with
  | base => rfl
  | succ e' hle ih =>
    have hlt : e' * (2 * ins.dim + 1) < sentIn t :=
      lt_of_le_of_lt (Nat.mul_le_mul_right _ (Nat.le_succ e')) he'
    have ih' := ih hlt
    obtain ⟨b1, b2⟩ := c51_range d hd hn t l ht.nonneg hl _ hlt i hi
    rw [hst e' (by omega) i hi, ← ih']
    rw [← ih'] at h0 hsmall
    obtain ⟨x, hx⟩ : ∃ x, x = l.sent (e' * (2 * ins.dim + 1)) i := ⟨_, rfl⟩
    unfold next lows highs
    simp only [← hx] at b1 b2 h0 hsmall ⊢
    have htr : trial (ins.at_ i).min (ins.at_ i).max x ≤ dblEps := by
      unfold trial
      rw [if_neg h0, div_le_iff₀ (by norm_num)]
      linarith
    have ht0 := trial_nonneg ((descent_init hd).1.2 i hi) x
    have hup : |up (ins.at_ i).min (ins.at_ i).max x - x| ≤ dblEps := by
      have h1 : x ≤ up (ins.at_ i).min (ins.at_ i).max x := le_clip b2 (by linarith)
      have h2 : up (ins.at_ i).min (ins.at_ i).max x ≤ x + trial (ins.at_ i).min (ins.at_ i).max x :=
        clip_le (by linarith) (le_refl _)
      rw [abs_of_nonneg (sub_nonneg.2 h1)]; linarith
    have hdn : |down (ins.at_ i).min (ins.at_ i).max x - x| ≤ dblEps := by
      have h1 : down (ins.at_ i).min (ins.at_ i).max x ≤ x := clip_le b1 (by linarith)
      have h2 : x - trial (ins.at_ i).min (ins.at_ i).max x ≤ down (ins.at_ i).min (ins.at_ i).max x :=
        le_clip (by linarith) (le_refl _)
      rw [abs_of_nonpos (sub_nonpos.2 h1)]; linarith
    unfold move
    rw [if_neg (fun h => absurd h.1.2 (not_lt.2 hdn)), if_neg (fun h => absurd h.2 (not_lt.2 hup)), mul_zero,
      add_zero]
    exact clip_id b1 b2

/-- **C51, report.** When all `2 n + 1` runs of all epochs are back, the shutdown takes another step first: the
    row it writes pairs the cost of the last epoch's state with the state that epoch leads to, which is never
    run. -/
theorem c51_report (d : Desc K) (hd : Descent.init cfg ins = some d) (hn : cfg.numVars = ins.dim)
    (c : Nat → K) (t : List (Descent.Ev K)) (ht : Descent.Spec.Timely (2 * ins.dim + 1) c t)
    (hall : sentIn t = Descent.numRuns cfg)
    (hback : ∀ k, k < Descent.numRuns cfg → Descent.Ev.back (k : Int) (c k) ∈ t) :
    ∃ l, Descent.exec cfg ins (Descent.Log.fresh d) t = some l ∧
      (Descent.shutdown cfg ins l.desc).1 = c ((cfg.maxEpoch - 1) * (2 * ins.dim + 1)) ∧
      ∀ i, i < ins.dim → (Descent.shutdown cfg ins l.desc).2 i =
        next ins.dim cfg.gain (lows ins) (highs ins) (l.sent ((cfg.maxEpoch - 1) * (2 * ins.dim + 1)))
          (c ((cfg.maxEpoch - 1) * (2 * ins.dim + 1)))
          (fun p => c ((cfg.maxEpoch - 1) * (2 * ins.dim + 1) + 1 + p)) i := by
  obtain ⟨hin, hf, -, hme, -, -⟩ := descent_init hd
  obtain ⟨l, hl, hs⟩ := Descent.timely_exec (cfg := cfg) hin hf t ht
  have hr := Descent.runs_eq _ t l hl
  simp only [Descent.Log.fresh, Nat.zero_add] at hr
  refine ⟨l, hl, ?_⟩
  have hnr : Descent.numRuns cfg = cfg.maxEpoch * (2 * ins.dim + 1) := by unfold Descent.numRuns; rw [hn]
  have hpos : 0 < cfg.maxEpoch * (2 * ins.dim + 1) := Nat.mul_pos hme (by omega)
  rcases hs with ⟨h0, _⟩ | ⟨_, _, _, e, r, ha, hg⟩
  · omega
  · have h2 := ha.runs
    have hle := ha.le
    have heq : cfg.maxEpoch * (2 * ins.dim + 1) + 0 = e * (2 * ins.dim + 1) + (r + 1) := by omega
    have hr1 : r = 2 * ins.dim := by
      by_contra hne
      have h3 := congrArg (· % (2 * ins.dim + 1)) heq
      simp only [Nat.mul_add_mod_self_right, Nat.zero_mod] at h3
      rw [Nat.mod_eq_of_lt (by omega)] at h3
      omega
    have he : cfg.maxEpoch = e + 1 := by
      have : cfg.maxEpoch * (2 * ins.dim + 1) = (e + 1) * (2 * ins.dim + 1) := by
        rw [Nat.add_mul, Nat.one_mul]; omega
      exact Nat.eq_of_mul_eq_mul_right (by omega) this
    have hb : ∀ k, k < l.runs → Descent.Ev.back (k : Int) (c k) ∈ t := fun k hk => hback k (by omega)
    rw [he, Nat.add_sub_cancel]
    unfold Descent.shutdown
    rw [update_new hin.1 (by rw [ha.run, hr1])]
    simp only
    refine ⟨?_, fun i hi => propagate_next hin ha hg hr1 hb hi⟩
    exact hg.gcost (hb _ (by rw [ha.runs]; omega))

/-! ### Runs in series -/

/-- Runs in series, each result back before the next run: the costs are `F` of the states sent out. -/
def inSeries (cfg : Descent.Config K) (ins : Inputs K) (F : (Nat → K) → K) (l : Descent.Log K) :
    Nat → Option (Descent.Log K)
  | 0 => some l
  | n + 1 =>
    (inSeries cfg ins F l n).bind fun l1 =>
      (Descent.step cfg ins l1 .run).bind fun l2 =>
        Descent.step cfg ins l2 (.back (n : Int) (F (l2.sent n)))

/-- The events of `n` runs in series. -/
def series (c : Nat → K) : Nat → List (Descent.Ev K)
  | 0 => []
  | n + 1 => (series c n ++ [.run]) ++ [.back (n : Int) (c n)]

theorem timely_snoc {m : Nat} {c : Nat → K} {t : List (Descent.Ev K)} {e : Descent.Ev K}
    (h : Descent.Spec.Timely m c t)
    (he : match e with
      | .run => m ∣ sentIn t → ∀ k, k < sentIn t → Descent.Ev.back (k : Int) (c k) ∈ t
      | .back id v => ∃ k : Nat, id = (k : Int) ∧ v = c k ∧ k < sentIn t ∧ k / m = (sentIn t - 1) / m ∧
          (k % m ≠ 0 → Descent.Ev.back ((k / m * m : Nat) : Int) (c (k / m * m)) ∈ t)) :
    Descent.Spec.Timely m c (t ++ [e]) := by
  intro pre e' post hp
  rcases List.eq_nil_or_concat post with rfl | ⟨post', z, rfl⟩
  · obtain ⟨h1, h2⟩ := List.append_inj' hp rfl
    rw [← h1]
    simp only [List.cons.injEq, and_true] at h2
    rw [← h2]
    exact he
  · rw [List.concat_eq_append, ← List.cons_append, ← List.append_assoc] at hp
    obtain ⟨h1, -⟩ := List.append_inj' hp rfl
    exact h pre e' post' h1

theorem series_sent (c : Nat → K) (n : Nat) : sentIn (series c n) = n := by
  induction n with
  | zero => rfl
  | succ n ih => simp [series, Descent.sentIn_append, sentIn, ih]

theorem series_back (c : Nat → K) (n : Nat) (k : Nat) (hk : k < n) :
    Descent.Ev.back (k : Int) (c k) ∈ series c n := by
  induction n with
  | zero => omega
  | succ n ih =>
    simp only [series, List.mem_append, List.mem_singleton]
    rcases Nat.lt_or_ge k n with h | h
    · exact Or.inl (Or.inl (ih h))
    · have : k = n := by omega
      subst this
      exact Or.inr rfl

/-- Runs in series have their results in time. -/
theorem series_timely {m : Nat} (c : Nat → K) (n : Nat) : Descent.Spec.Timely m c (series c n) := by
  induction n with
  | zero =>
    intro pre e post h
    simp [series] at h
  | succ n ih =>
    have h1 : Descent.Spec.Timely m c (series c n ++ [.run]) :=
      timely_snoc ih (fun _ k hk => series_back c n k (by rw [series_sent] at hk; exact hk))
    have hs : sentIn (series c n ++ [.run]) = n + 1 := by
      rw [Descent.sentIn_append, series_sent]; rfl
    refine timely_snoc h1 ⟨n, rfl, rfl, by omega, by rw [hs, Nat.add_sub_cancel], fun hn => ?_⟩
    have h2 := Nat.div_add_mod n m
    have h3 : n / m * m = m * (n / m) := Nat.mul_comm _ _
    exact List.mem_append_left _ (series_back c n _ (by omega))

theorem series_congr {c c' : Nat → K} {n : Nat} (h : ∀ k, k < n → c k = c' k) : series c n = series c' n := by
  induction n with
  | zero => rfl
  | succ n ih => rw [series, series, ih (fun k hk => h k (by omega)), h n (by omega)]

/-- **C51, runs in series.** Started up, the optimizer can be run in series for any cost function and any number
    of runs without a throw; it sees timely results, the costs of the states it sent out. -/
theorem c51_serial (d : Desc K) (hd : Descent.init cfg ins = some d) (F : (Nat → K) → K) (n : Nat) :
    ∃ (l : Descent.Log K) (c : Nat → K), inSeries cfg ins F (Descent.Log.fresh d) n = some l ∧
      Descent.Spec.Timely (2 * ins.dim + 1) c (series c n) ∧ sentIn (series c n) = n ∧
      (∀ k, k < n → Descent.Ev.back (k : Int) (c k) ∈ series c n) ∧
      Descent.exec cfg ins (Descent.Log.fresh d) (series c n) = some l ∧
      ∀ k, k < n → c k = F (l.sent k) := by
  suffices ∃ (l : Descent.Log K) (c : Nat → K), inSeries cfg ins F (Descent.Log.fresh d) n = some l ∧
      Descent.exec cfg ins (Descent.Log.fresh d) (series c n) = some l ∧
      ∀ k, k < n → c k = F (l.sent k) by
    obtain ⟨l, c, h1, h2, h3⟩ := this
    exact ⟨l, c, h1, series_timely c n, series_sent c n, series_back c n, h2, h3⟩
  induction n with
  | zero => exact ⟨_, fun _ => 0, rfl, rfl, fun k hk => absurd hk (Nat.not_lt_zero k)⟩
  | succ n ih =>
    obtain ⟨l, c, h1, h2, h3⟩ := ih
    have hr := Descent.runs_eq _ _ l h2
    simp only [Descent.Log.fresh, Nat.zero_add, series_sent] at hr
    obtain ⟨l2, hl2⟩ : ∃ l2, Descent.step cfg ins l .run = some l2 := ⟨_, rfl⟩
    obtain ⟨c', hc'⟩ : ∃ c' : Nat → K, c' = fun k => if k = n then F (l2.sent n) else c k := ⟨_, rfl⟩
    have hcc : series c n = series c' n :=
      series_congr (fun k hk => by rw [hc']; simp only [if_neg (show ¬ k = n by omega)])
    obtain ⟨hin, hf, -, -, -, -⟩ := descent_init hd
    obtain ⟨l3, hl3, -⟩ := Descent.timely_exec (cfg := cfg) hin hf (series c' (n + 1))
      (series_timely c' (n + 1))
    have hst : Descent.step cfg ins l2 (.back (n : Int) (F (l2.sent n))) = some l3 := by
      rw [series, Descent.exec_snoc, Descent.exec_snoc, ← hcc, h2] at hl3
      simp only [Option.bind_some, hl2] at hl3
      rw [hc'] at hl3
      simpa using hl3
    refine ⟨l3, c', ?_, hl3, fun k hk => ?_⟩
    · simp only [inSeries, h1, Option.bind_some, hl2, hst]
    · rw [(Descent.back_some hst).2.1, hc']
      by_cases hkn : k = n
      · simp only [hkn, if_true]
      · have h4 : l2.sent k = l.sent k := by
          simp only [Descent.step, Option.some.injEq] at hl2
          rw [← hl2]
          simp only [hr, if_neg hkn]
        simp only [if_neg hkn]
        rw [h3 k (by omega), h4]

/-! ### Cases -/

/-- One input between −10 and 10, started at `1 / 10` with a gain of one. -/
def gradCfg : Descent.Config ℚ := ⟨1, 2, 1, fun _ => 1 / 10⟩
def gradIns : Inputs ℚ := ⟨1, fun _ => ⟨-10, 10, []⟩⟩

/-- A cost that is never zero. -/
def bowl (x : Nat → ℚ) : ℚ := 1 + x 0 * x 0

theorem gradWitness {cfg : Descent.Config ℚ} {ins : Inputs ℚ} {F : (Nat → ℚ) → ℚ} {n : Nat}
    {P : Descent.Log ℚ → Prop} [DecidablePred P]
    (h : ((Descent.init cfg ins).bind (fun d => inSeries cfg ins F (Descent.Log.fresh d) n)).any
      (fun l => decide (P l)) = true) :
    ∃ d l, Descent.init cfg ins = some d ∧ inSeries cfg ins F (Descent.Log.fresh d) n = some l ∧ P l := by
  cases hs : Descent.init cfg ins with
  | none => rw [hs] at h; exact absurd h (by simp)
  | some d =>
    rw [hs] at h
    cases hl : inSeries cfg ins F (Descent.Log.fresh d) n with
    | none => simp only [Option.bind_some, hl] at h; exact absurd h (by simp)
    | some l =>
      simp only [Option.bind_some, hl, Option.any_some, decide_eq_true_eq] at h
      exact ⟨d, l, rfl, hl, h⟩

theorem gradEvents {cfg : Descent.Config ℚ} {ins : Inputs ℚ} {t : List (Descent.Ev ℚ)}
    {P : Descent.Log ℚ → Prop} [DecidablePred P]
    (h : ((Descent.init cfg ins).bind (fun d => Descent.exec cfg ins (Descent.Log.fresh d) t)).any
      (fun l => decide (P l)) = true) :
    ∃ d l, Descent.init cfg ins = some d ∧ Descent.exec cfg ins (Descent.Log.fresh d) t = some l ∧ P l := by
  cases hs : Descent.init cfg ins with
  | none => rw [hs] at h; exact absurd h (by simp)
  | some d =>
    rw [hs] at h
    cases hl : Descent.exec cfg ins (Descent.Log.fresh d) t with
    | none => simp only [Option.bind_some, hl] at h; exact absurd h (by simp)
    | some l =>
      simp only [Option.bind_some, hl, Option.any_some, decide_eq_true_eq] at h
      exact ⟨d, l, rfl, hl, h⟩

/-- **C51, overshoot.** The step aims at zero cost.  If the least cost is not zero, an epoch that starts near the
    optimum leads away from it: with the cost `1 + x²` the state goes from `1 / 10` to below `-4.9`. -/
theorem c51_overshoot :
    ∃ d l, Descent.init gradCfg gradIns = some d ∧
      inSeries gradCfg gradIns bowl (Descent.Log.fresh d) 6 = some l ∧
      (l.sent 0 0 = 1 / 10 ∧ l.sent 3 0 < -49 / 10 ∧ bowl (l.sent 0) = 101 / 100 ∧ 25 < bowl (l.sent 3)) :=
  gradWitness (by decide +kernel)

/-- **C51, report fails.** The row written at shutdown does not describe a run: after one epoch it has the cost
    `1.01` of the first state and a state that costs more than 25. -/
theorem c51_report_wrong :
    ∃ d l, Descent.init { gradCfg with maxEpoch := 1 } gradIns = some d ∧
      inSeries { gradCfg with maxEpoch := 1 } gradIns bowl (Descent.Log.fresh d)
        (Descent.numRuns { gradCfg with maxEpoch := 1 }) = some l ∧
      ((Descent.shutdown { gradCfg with maxEpoch := 1 } gradIns l.desc).1 = 101 / 100 ∧
        25 < bowl (Descent.shutdown { gradCfg with maxEpoch := 1 } gradIns l.desc).2) :=
  gradWitness (by decide +kernel)

/-- **C51, results out of order.** The results of trials that come back before the first of their epoch are
    compared with the cost of the epoch before, which is zero at the start: here all results are those of the
    states sent out and all are back before the next epoch, the decrease is cheaper than the state, and the
    state does not move. -/
theorem c51_late :
    ∃ d l, Descent.init gradCfg gradIns = some d ∧
      Descent.exec gradCfg gradIns (Descent.Log.fresh d) [.run, .run, .run,
        .back 1 (1 + 1001 / 10000 * (1001 / 10000)), .back 2 (1 + 999 / 10000 * (999 / 10000)),
        .back 0 (101 / 100), .run] = some l ∧
      (bowl (l.sent 0) = 101 / 100 ∧ bowl (l.sent 1) = 1 + 1001 / 10000 * (1001 / 10000) ∧
        bowl (l.sent 2) = 1 + 999 / 10000 * (999 / 10000) ∧ bowl (l.sent 2) < bowl (l.sent 0) ∧
        l.sent 3 0 = l.sent 0 0) :=
  gradEvents (by decide +kernel)

/-- **C51, fewer variables than inputs.** The number of variables is not compared with the number of inputs.
    With one variable and two inputs the second input starts at zero, here outside its bounds, and the number
    of runs is one epoch of three although an epoch has five: the shutdown reports the first state. -/
theorem c51_unset :
    ∃ d l, Descent.init { gradCfg with maxEpoch := 1 } ⟨2, fun _ => ⟨1, 2, []⟩⟩ = some d ∧
      inSeries { gradCfg with maxEpoch := 1 } ⟨2, fun _ => ⟨1, 2, []⟩⟩ bowl (Descent.Log.fresh d)
        (Descent.numRuns { gradCfg with maxEpoch := 1 }) = some l ∧
      (Descent.numRuns { gradCfg with maxEpoch := 1 } = 3 ∧ l.sent 0 0 = 1 ∧ l.sent 0 1 = 0 ∧
        (Descent.shutdown { gradCfg with maxEpoch := 1 } ⟨2, fun _ => ⟨1, 2, []⟩⟩ l.desc).2 0 = 1 ∧
        (Descent.shutdown { gradCfg with maxEpoch := 1 } ⟨2, fun _ => ⟨1, 2, []⟩⟩ l.desc).2 1 = 0) :=
  gradWitness (by decide +kernel)

/-- A case of `c51_affine`: two inputs, the cost `8 + x - 2 y` and a gain of one half. -/
example : ∃ d l, Descent.init (⟨2, 2, 1 / 2, fun _ => 1⟩ : Descent.Config ℚ) ⟨2, fun _ => ⟨-10, 10, []⟩⟩ = some d ∧
    inSeries (⟨2, 2, 1 / 2, fun _ => 1⟩ : Descent.Config ℚ) ⟨2, fun _ => ⟨-10, 10, []⟩⟩
      (fun x => 8 + x 0 - 2 * x 1) (Descent.Log.fresh d) 6 = some l ∧
    (l.sent 0 0 = 1 ∧ l.sent 0 1 = 1 ∧ l.sent 1 0 = 1001 / 1000 ∧ l.sent 4 1 = 999 / 1000 ∧
      l.sent 5 0 = -3 / 4 ∧ l.sent 5 1 = 15 / 8 ∧ 8 + l.sent 0 0 - 2 * l.sent 0 1 = 7 ∧
      8 + l.sent 5 0 - 2 * l.sent 5 1 = 7 / 2) :=
  gradWitness (by decide +kernel)

/-- A case of `c51_frozen`: an input at `1000 / 2^53` stays although the cost falls with it. -/
example : ∃ d l, Descent.init (⟨1, 2, 1, fun _ => 1000 / 2 ^ 53⟩ : Descent.Config ℚ) gradIns = some d ∧
    inSeries (⟨1, 2, 1, fun _ => 1000 / 2 ^ 53⟩ : Descent.Config ℚ) gradIns (fun x => 8 + x 0)
      (Descent.Log.fresh d) 6 = some l ∧
    (l.sent 0 0 = 1000 / 2 ^ 53 ∧ l.sent 2 0 < l.sent 0 0 ∧ l.sent 3 0 = l.sent 0 0 ∧
      |l.sent 0 0| ≤ 1000 * (dblEps : ℚ)) :=
  gradWitness (by decide +kernel)

end Gunns.Props
