import Verif.Optim.DescentSpec
import Mathlib.Tactic.Ring
import Mathlib.Tactic.Linarith
import Mathlib.Tactic.FieldSimp

set_option linter.unusedSectionVars false

namespace Gunns.Optim.Descent

open Gunns.Elements Gunns.Optim.Descent.Spec

variable {K : Type _} [Field K] [LinearOrder K] [IsStrictOrderedRing K]
variable {cfg : Config K} {ins : Inputs K}

/-! ### Values -/

theorem limitRange_clip {lo hi x : K} (h : lo ≤ hi) : limitRange lo x hi = clip lo hi x := by
  unfold limitRange clip
  split_ifs with h1 h2
  · rw [min_eq_left (h1.le.trans h), max_eq_right h1.le]
  · rw [min_eq_right h2.le, max_eq_left h]
  · rw [min_eq_left (not_lt.1 h2), max_eq_left (not_lt.1 h1)]

theorem probeStep_trial (inp : Input K) (x : K) : probeStep inp x = trial inp.min inp.max x := by
  unfold probeStep trial
  by_cases h : x = 0
  · rw [if_pos h.symm, if_pos h]; ring
  · rw [if_neg (Ne.symm h), if_neg h]; ring

theorem incTo_up {inp : Input K} (h : inp.min ≤ inp.max) (x : K) :
    incTo inp x = up inp.min inp.max x := by
  unfold incTo up; rw [limitRange_clip h, probeStep_trial]

theorem decTo_down {inp : Input K} (h : inp.min ≤ inp.max) (x : K) :
    decTo inp x = down inp.min inp.max x := by
  unfold decTo down; rw [limitRange_clip h, probeStep_trial]

/-- Cost difference and gradient of a probe as `assignCost` computes them. -/
def Probed (c cp : K) (p : Probe K) : Prop :=
  p.dCost = cp - c ∧ p.grad = if |p.dState| > dblEps then (cp - c) / p.dState else 0

theorem probed_use {c cp : K} {p : Probe K} (h : Probed c cp p) :
    (p.dCost < 0 ∧ p.grad ≠ 0) ↔ Helps c cp p.dState := by
  obtain ⟨h1, h2⟩ := h
  unfold Helps
  rw [h1, h2]
  constructor
  · rintro ⟨h3, h4⟩
    refine ⟨by linarith, ?_⟩
    by_contra hn
    rw [if_neg hn] at h4
    exact h4 rfl
  · rintro ⟨h3, h4⟩
    refine ⟨by linarith, ?_⟩
    rw [if_pos h4]
    have hd : p.dState ≠ 0 := by
      intro h0
      rw [h0, abs_zero] at h4
      exact absurd h4 (not_lt.2 dblEps_pos.le)
    exact div_ne_zero (by linarith) hd

theorem probed_zero {c cp : K} {p : Probe K} (h : Probed c cp p) (hh : Helps c cp p.dState) :
    -1 * c / p.grad = toZero c cp p.dState := by
  obtain ⟨h1, h2⟩ := h
  obtain ⟨h3, h4⟩ := hh
  rw [h2, if_pos h4]
  unfold toZero
  have hd : p.dState ≠ 0 := by
    intro h0
    rw [h0, abs_zero] at h4
    exact absurd h4 (not_lt.2 dblEps_pos.le)
  have hc : cp - c ≠ 0 := by intro h; linarith
  have hc' : c - cp ≠ 0 := by intro h; linarith
  rw [div_div_eq_mul_div, mul_div_assoc', div_eq_div_iff hc hc']
  ring

theorem deltaState_move {d : Desc K} {i : Nat} {c cu cd lo hi x : K}
    (hc : d.glob.cost = c) (h1 : Probed c cu (d.probes (2 * i))) (h2 : Probed c cd (d.probes (2 * i + 1)))
    (e1 : (d.probes (2 * i)).dState = up lo hi x - x)
    (e2 : (d.probes (2 * i + 1)).dState = down lo hi x - x) :
    deltaState d i = move lo hi x c cu cd := by
  have u1 := probed_use h1
  have u2 := probed_use h2
  have hlt : (d.probes (2 * i + 1)).dCost < (d.probes (2 * i)).dCost ↔ cd < cu := by
    rw [h1.1, h2.1]
    constructor <;> intro h <;> linarith
  have b1 : ((decide ((d.probes (2 * i)).dCost < 0) && decide ((d.probes (2 * i)).grad ≠ 0)) = true) ↔
      Helps c cu (up lo hi x - x) := by
    rw [← e1, ← u1]; simp
  have b2 : ((decide ((d.probes (2 * i + 1)).dCost < 0) && decide ((d.probes (2 * i + 1)).grad ≠ 0)) =
      true) ↔ Helps c cd (down lo hi x - x) := by
    rw [← e2, ← u2]; simp
  unfold deltaState move
  by_cases g1 : Helps c cd (down lo hi x - x) ∧ cd < cu
  · rw [if_pos g1, ← e2, ← probed_zero h2 (e2 ▸ g1.1), ← hc]
    have g2 := b2.2 g1.1
    have g3 := hlt.2 g1.2
    simp only [g2, g3, decide_true, Bool.and_self, if_true]
  · rw [if_neg g1]
    have g3 : ¬((decide ((d.probes (2 * i + 1)).dCost < 0) && decide ((d.probes (2 * i + 1)).grad ≠ 0) &&
        decide ((d.probes (2 * i + 1)).dCost < (d.probes (2 * i)).dCost)) = true) := by
      rw [Bool.and_eq_true, b2, decide_eq_true_eq, hlt]
      exact g1
    by_cases g2 : Helps c cu (up lo hi x - x)
    · rw [if_pos g2, ← e1, ← probed_zero h1 (e1 ▸ g2), ← hc]
      simp only [if_neg g3, if_pos (b1.2 g2)]
    · rw [if_neg g2]
      simp only [if_neg g3, if_neg (fun h => g2 (b1.1 h))]

/-! ### Sequences of events -/

theorem sentIn_append (a b : List (Ev K)) : sentIn (a ++ b) = sentIn a + sentIn b := by
  induction a with
  | nil => simp [sentIn]
  | cons e t ih =>
    cases e with
    | run => simp only [List.cons_append, sentIn, ih]; omega
    | back id v => simp only [List.cons_append, sentIn, ih]

theorem exec_append (l : Log K) (a b : List (Ev K)) :
    exec cfg ins l (a ++ b) = (exec cfg ins l a).bind (fun l' => exec cfg ins l' b) := by
  induction a generalizing l with
  | nil => rfl
  | cons e t ih =>
    simp only [List.cons_append, exec]
    cases step cfg ins l e with
    | none => rfl
    | some l' => exact ih l'

theorem exec_snoc (l : Log K) (a : List (Ev K)) (e : Ev K) :
    exec cfg ins l (a ++ [e]) = (exec cfg ins l a).bind (fun l' => step cfg ins l' e) := by
  rw [exec_append]
  congr 1
  funext l'
  simp only [exec]
  cases step cfg ins l' e <;> rfl

/-- Invariant rule for sequences of events that do not throw. -/
theorem exec_inv (P : List (Ev K) → Log K → Prop) (l0 : Log K) (h0 : P [] l0)
    (hs : ∀ t e l l', P t l → step cfg ins l e = some l' → P (t ++ [e]) l') (t : List (Ev K)) (l : Log K)
    (h : exec cfg ins l0 t = some l) : P t l := by
  induction t using List.reverseRecOn generalizing l with
  | nil => simp only [exec, Option.some.injEq] at h; exact h ▸ h0
  | append_singleton t e ih =>
    rw [exec_snoc] at h
    cases he : exec cfg ins l0 t with
    | none => rw [he] at h; exact absurd h (by simp)
    | some l1 => rw [he] at h; exact hs t e l1 l (ih l1 he) h

theorem back_some {l l' : Log K} {id : Int} {v : K} (h : step cfg ins l (.back id v) = some l') :
    l'.runs = l.runs ∧ l'.sent = l.sent ∧ assignCost ins v id l.desc = some l'.desc := by
  simp only [step] at h
  cases ha : assignCost ins v id l.desc with
  | none => rw [ha] at h; exact absurd h (by simp)
  | some s => rw [ha] at h; rw [← Option.some.inj h]; exact ⟨rfl, rfl, rfl⟩

theorem runs_eq (l : Log K) (t : List (Ev K)) (l' : Log K) (h : exec cfg ins l t = some l') :
    l'.runs = l.runs + sentIn t := by
  refine exec_inv (fun t l' => l'.runs = l.runs + sentIn t) l rfl (fun t e l1 l2 h1 h2 => ?_) t l' h
  cases e with
  | run =>
    simp only [step, Option.some.injEq] at h2
    rw [← h2, sentIn_append]
    simp only [sentIn]
    omega
  | back id v =>
    rw [(back_some h2).1, sentIn_append, h1]
    simp [sentIn]

/-! ### `assignCost` -/

theorem assign_probe {cost : K} {id : Int} {d : Desc K} {p : Nat} (hp : p < 2 * ins.dim)
    (hid : (d.probes p).runId = id) (hfirst : ∀ q, q < p → (d.probes q).runId ≠ id) :
    assignCost ins cost id d = some { d with
      probes := fun q =>
        if q = p then
          { d.probes p with
            dCost := cost - d.glob.cost
            grad := if |(d.probes p).dState| > dblEps then
              (cost - d.glob.cost) / (d.probes p).dState else 0
            cost := cost }
        else d.probes q } := by
  have hf : (List.range (2 * ins.dim)).find? (fun p => decide (id = (d.probes p).runId)) = some p := by
    rw [List.find?_range_eq_some]
    exact ⟨by simp [hid], List.mem_range.2 hp, fun j hj => by simpa using (hfirst j hj).symm⟩
  unfold assignCost
  rw [hf]

theorem assign_glob {cost : K} {id : Int} {d : Desc K} (hid : d.glob.runId = id)
    (hno : ∀ q, q < 2 * ins.dim → (d.probes q).runId ≠ id) :
    assignCost ins cost id d = some { d with glob := { d.glob with grad := 0, cost := cost } } := by
  have hf : (List.range (2 * ins.dim)).find? (fun p => decide (id = (d.probes p).runId)) = none := by
    rw [List.find?_eq_none]
    intro q hq
    simpa using (hno q (List.mem_range.1 hq)).symm
  unfold assignCost
  rw [hf]
  simp only [hid, if_true]

/-! ### `update` -/

theorem update_first {d : Desc K} (hr : d.run = -1) :
    update cfg ins d = { d with
      globalRun := d.globalRun + 1
      run := 0
      active := none
      glob := { d.glob with runId := d.globalRun + 1 } } := by
  unfold update
  simp only [hr]
  rw [if_neg (by decide), if_neg (by omega)]
  unfold activate
  simp

theorem update_probe0 {d : Desc K} (hr : d.run = 0) :
    update cfg ins d = { d with
      globalRun := d.globalRun + 1
      run := 1
      active := some 0
      probes := fun p =>
        if p = 0 then { (setGradientStates ins d).probes p with runId := d.globalRun + 1 }
        else (setGradientStates ins d).probes p } := by
  unfold update
  simp only [hr]
  rw [if_pos (by decide)]
  unfold activate
  simp [setGradientStates]

theorem update_probe {d : Desc K} {r : Nat} (hr : d.run = (r : Int)) (h0 : 0 < r) (h1 : r < 2 * ins.dim) :
    update cfg ins d = { d with
      globalRun := d.globalRun + 1
      run := (r : Int) + 1
      active := some r
      probes := fun p =>
        if p = r then { d.probes p with runId := d.globalRun + 1 } else d.probes p } := by
  unfold update
  simp only [hr]
  rw [if_neg (by omega), if_neg (by omega)]
  unfold activate
  simp only
  rw [if_neg (by omega)]
  simp

theorem update_new {d : Desc K} (hd : 0 < ins.dim) (hr : d.run = ((2 * ins.dim : Nat) : Int)) :
    update cfg ins d = { d with
      globalRun := d.globalRun + 1
      run := 0
      epoch := d.epoch + 1
      active := none
      glob := { (propagate cfg ins d).glob with runId := d.globalRun + 1 } } := by
  unfold update
  simp only [hr]
  rw [if_neg (by omega), if_pos (by omega)]
  unfold activate
  simp [propagate, deltaState]

end Gunns.Optim.Descent
