import Mathlib.Tactic.Linarith
import Mathlib.Tactic.Ring
import Mathlib.Tactic.NormNum
import Verif.Elect.Ips

/-!
# C81: the internal power supply
-/

set_option linter.unusedSectionVars false

namespace Gunns.Props

open Gunns Gunns.Ips

section Field

variable {K : Type} [Field K] [LinearOrder K] [IsStrictOrderedRing K]

/-! ## The selection -/

private theorem scan_spec (ok : ℕ → Bool) (v : ℕ → K) (tol : K) (n : ℕ) (start : Option ℕ × K) (ht : 0 ≤ tol) :
    let r := scan ok v tol n start
    (r = start ∨ ∃ s < n, ok s = true ∧ r = (some s, v s) ∧ start.2 + tol < v s) ∧ start.2 ≤ r.2 ∧
      ∀ s < n, ok s = true → v s ≤ r.2 + tol := by
  unfold scan
  induction n with
  | zero =>
    refine ⟨Or.inl rfl, le_rfl, fun s hs => absurd hs (Nat.not_lt_zero s)⟩
  | succ n ih =>
    simp only [List.range_succ, List.foldl_append, List.foldl_cons, List.foldl_nil] at ih ⊢
    generalize (List.range n).foldl (fun a s => if ok s = true ∧ v s - a.2 > tol then (some s, v s) else a) start = q at ih ⊢
    obtain ⟨h1, h2, h3⟩ := ih
    by_cases hc : ok n = true ∧ v n - q.2 > tol
    · rw [if_pos hc]
      refine ⟨Or.inr ⟨n, Nat.lt_succ_self n, hc.1, rfl, by linarith [hc.2]⟩, by linarith [hc.2], fun s hs ho => ?_⟩
      rcases Nat.lt_succ_iff_lt_or_eq.1 hs with hs | rfl
      · have := h3 s hs ho
        simp only
        linarith [hc.2]
      · simp only
        linarith
    · rw [if_neg hc]
      refine ⟨?_, h2, fun s hs ho => ?_⟩
      · rcases h1 with h1 | ⟨s, hs, h1⟩
        · exact Or.inl h1
        · exact Or.inr ⟨s, Nat.lt_succ_of_lt hs, h1⟩
      · rcases Nat.lt_succ_iff_lt_or_eq.1 hs with hs | rfl
        · exact h3 s hs ho
        · rw [not_and] at hc
          have := not_lt.1 (hc ho)
          linarith

/-- A source that may be used: it has no malfunction, and the supply is on when it takes commands. -/
def Usable (r : Supply K) (s : ℕ) : Prop := r.malf s = false ∧ r.malfAll = false ∧ (r.cmdUsed = true → r.cmdOn = true)

private theorem allowed_iff (r : Supply K) (s : ℕ) : r.allowed s = true ↔ Usable r s := by
  unfold Supply.allowed Usable
  cases r.malf s <;> cases r.malfAll <;> cases r.cmdUsed <;> cases r.cmdOn <;> simp

/-- The best of the sources below `n` that are usable and satisfy a condition, up to the tolerance. -/
def Best (r : Supply K) (v : ℕ → K) (n : ℕ) (p : K → Prop) (s : ℕ) : Prop :=
  s < n ∧ Usable r s ∧ p (v s) ∧ ∀ t < n, Usable r t → p (v t) → v t ≤ v s + r.tol

/-- No source below `n` that is usable and satisfies a condition has more than the tolerance. -/
def Absent (r : Supply K) (v : ℕ → K) (n : ℕ) (p : K → Prop) : Prop := ∀ t < n, Usable r t → p (v t) → v t ≤ r.tol

private theorem scan_none (r : Supply K) (v : ℕ → K) (n : ℕ) (p : K → Prop) [DecidablePred p] (ht : 0 ≤ r.tol) :
    (∃ s, scan (fun s => r.allowed s && decide (p (v s))) v r.tol n (none, 0) = (some s, v s) ∧ Best r v n p s ∧ r.tol < v s) ∨
      (scan (fun s => r.allowed s && decide (p (v s))) v r.tol n (none, 0) = (none, 0) ∧ Absent r v n p) := by
  obtain ⟨h1, -, h3⟩ := scan_spec (fun s => r.allowed s && decide (p (v s))) v r.tol n (none, 0) ht
  rcases h1 with h1 | ⟨s, hs, h1, h2, h4⟩
  · refine Or.inr ⟨h1, fun t htn hu hp => ?_⟩
    have := h3 t htn (by simp [(allowed_iff r t).2 hu, hp])
    rw [h1] at this
    simpa using this
  · refine Or.inl ⟨s, h2, ⟨hs, ?_, ?_, fun t htn hu hp => ?_⟩, by simpa using h4⟩
    · simp only [Bool.and_eq_true] at h1
      exact (allowed_iff r s).1 h1.1
    · simp only [Bool.and_eq_true, decide_eq_true_eq] at h1
      exact h1.2
    · have := h3 t htn (by simp [(allowed_iff r t).2 hu, hp])
      rw [h2] at this
      exact this

/-- **C81**: with back-up power, a primary source above the threshold is used, the best up to the tolerance.  When there is none,
a primary source above the under-voltage limit is used, or the back-up source if that has more than it by the tolerance.
When there is none of these either, the back-up source is used if its voltage is in its range. -/
theorem c81_with_backup (r : Supply K) (v : ℕ → K) (ht : 0 ≤ r.tol) (hb : r.backup = true) :
    match r.withBackup v with
    | some s =>
      (Best r v (r.n - 1) (fun x => r.threshold < x) s ∧ r.tol < v s) ∨
      (Absent r v (r.n - 1) (fun x => r.threshold < x) ∧
        ((Best r v (r.n - 1) (fun x => r.under < x) s ∧ (Usable r (r.n - 1) → v (r.n - 1) ≤ v s + r.tol)) ∨
        (s = r.n - 1 ∧ Usable r s ∧ ∃ t, Best r v (r.n - 1) (fun x => r.under < x) t ∧ v t + r.tol < v s) ∨
        (Absent r v (r.n - 1) (fun x => r.under < x) ∧ s = r.n - 1 ∧ Usable r s ∧ r.backMin ≤ v s ∧ v s ≤ r.backMax)))
    | none => Absent r v (r.n - 1) (fun x => r.threshold < x) ∧ Absent r v (r.n - 1) (fun x => r.under < x) ∧
      ¬ (Usable r (r.n - 1) ∧ r.backMin ≤ v (r.n - 1) ∧ v (r.n - 1) ≤ r.backMax) := by
  unfold Supply.withBackup Supply.aboveThreshold
  rcases scan_none r v (r.n - 1) (fun x => r.threshold < x) ht with ⟨s, e, hs, hp⟩ | ⟨e, ha⟩
  · simp only [gt_iff_lt, e]
    exact Or.inl ⟨hs, hp⟩
  · simp only [gt_iff_lt, e]
    unfold Supply.aboveLimit
    rcases scan_none r v (r.n - 1) (fun x => r.under < x) ht with ⟨s, e2, hs, hp⟩ | ⟨e2, ha2⟩
    · simp only [gt_iff_lt, e2]
      by_cases hc : r.allowed (r.n - 1) = true ∧ r.tol < v (r.n - 1) - v s
      · simp only [if_pos hc]
        exact Or.inr ⟨ha, Or.inr (Or.inl ⟨trivial, (allowed_iff r _).1 hc.1, s, hs, by linarith [hc.2]⟩)⟩
      · simp only [if_neg hc]
        refine Or.inr ⟨ha, Or.inl ⟨hs, fun hu => ?_⟩⟩
        rw [not_and] at hc
        have := not_lt.1 (hc ((allowed_iff r _).2 hu))
        linarith
    · simp only [gt_iff_lt, e2]
      unfold Supply.inRange
      by_cases hc : r.backup = true ∧ r.allowed (r.n - 1) = true ∧ r.backMin ≤ v (r.n - 1) ∧ v (r.n - 1) ≤ r.backMax
      · simp only [if_pos hc]
        exact Or.inr ⟨ha, Or.inr (Or.inr ⟨ha2, trivial, (allowed_iff r _).1 hc.2.1, hc.2.2.1, hc.2.2.2⟩)⟩
      · simp only [if_neg hc]
        refine ⟨ha, ha2, fun h => hc ⟨hb, (allowed_iff r _).2 h.1, h.2.1, h.2.2⟩⟩

/-- The active source can stay. -/
def Stays (r : Supply K) (v : ℕ → K) (s : ℕ) : Prop := r.active = some s ∧ Usable r s ∧ r.under ≤ v s

/-- **C81**: without back-up power, the source that is used is at or above the under-voltage limit and the best up to the
tolerance; the active one is kept as long as it can stay and no other has more by the tolerance; none is used only when
the active one cannot stay and no usable one has both the limit and the tolerance. -/
theorem c81_without_backup (r : Supply K) (v : ℕ → K) (ht : 0 ≤ r.tol) (hn : ∀ a, r.active = some a → a < r.n) :
    (match r.withoutBackup v with
    | some s => Best r v r.n (fun x => r.under ≤ x) s
    | none => Absent r v r.n (fun x => r.under ≤ x) ∧ ∀ s, ¬ Stays r v s) ∧
      ∀ s, Stays r v s → (∀ t < r.n, Usable r t → r.under ≤ v t → v t ≤ v s + r.tol) → r.withoutBackup v = some s := by
  have keep : ∀ s, Stays r v s → r.start v = (some s, v s) := by
    rintro s ⟨h1, h2, h3⟩
    unfold Supply.start
    rw [h1]
    exact if_pos ⟨(allowed_iff r s).2 h2, not_lt.2 h3⟩
  have lose : (∀ s, ¬ Stays r v s) → r.start v = (none, 0) := by
    intro h
    unfold Supply.start
    cases ha : r.active with
    | none => rfl
    | some a => exact if_neg fun hc => h a ⟨ha, (allowed_iff r a).1 hc.1, not_lt.1 hc.2⟩
  unfold Supply.withoutBackup
  by_cases hs : ∃ s, Stays r v s
  · obtain ⟨s, hs⟩ := hs
    simp only [keep s hs]
    have hsn := hn s hs.1
    obtain ⟨h1, h2, h3⟩ := scan_spec (fun s => r.allowed s && decide (v s ≥ r.under)) v r.tol r.n (some s, v s) ht
    have hall : ∀ t < r.n, Usable r t → r.under ≤ v t →
        v t ≤ (scan (fun s => r.allowed s && decide (v s ≥ r.under)) v r.tol r.n (some s, v s)).2 + r.tol :=
      fun t htn hu hp => h3 t htn (by simp [(allowed_iff r t).2 hu, hp])
    refine ⟨?_, fun s' hs' hmax => ?_⟩
    · rcases h1 with h1 | ⟨t, htn, ho, h1, -⟩
      · rw [h1] at hall ⊢
        exact ⟨hsn, hs.2.1, hs.2.2, hall⟩
      · rw [h1] at hall ⊢
        simp only [Bool.and_eq_true, decide_eq_true_eq] at ho
        exact ⟨htn, (allowed_iff r t).1 ho.1, ho.2, hall⟩
    · have es : s' = s := Option.some.inj (hs'.1.symm.trans hs.1)
      subst es
      rcases h1 with h1 | ⟨t, htn, ho, h1, h4⟩
      · rw [h1]
      · simp only [Bool.and_eq_true, decide_eq_true_eq] at ho
        have := hmax t htn ((allowed_iff r t).1 ho.1) ho.2
        exact absurd h4 (not_lt.2 this)
  · have hs' := not_exists.1 hs
    simp only [lose hs']
    refine ⟨?_, fun s h => absurd ⟨s, h⟩ hs⟩
    rcases scan_none r v r.n (fun x => r.under ≤ x) ht with ⟨s, e, hb, -⟩ | ⟨e, ha⟩
    · simp only [ge_iff_le, e]
      exact hb
    · simp only [ge_iff_le, e]
      exact ⟨ha, hs'⟩

/-- **C81**: while the supply may still switch, the source to use is chosen with the back-up only if there is one: without one it is the active source
as long as that can stay and none has more by the tolerance, and otherwise the best of all sources at or above the limit.  A supply that has used up
its switches keeps the active source. -/
theorem c81_target (r : Supply K) (v : ℕ → K) (ht : 0 ≤ r.tol) (hn : ∀ a, r.active = some a → a < r.n) :
    (r.switches < r.maxSwitches → r.backup = false →
      (match r.target v with
      | some s => Best r v r.n (fun x => r.under ≤ x) s
      | none => Absent r v r.n (fun x => r.under ≤ x) ∧ ∀ s, ¬ Stays r v s) ∧
        ∀ s, Stays r v s → (∀ t < r.n, Usable r t → r.under ≤ v t → v t ≤ v s + r.tol) → r.target v = some s) ∧
      (r.switches < r.maxSwitches → r.backup = true → ∀ s, Best r v (r.n - 1) (fun x => r.threshold < x) s → r.tol < v s →
        ∃ t, r.target v = some t ∧ Best r v (r.n - 1) (fun x => r.threshold < x) t) ∧
      (r.maxSwitches ≤ r.switches → r.target v = r.active) := by
  refine ⟨fun h1 h2 => ?_, fun h1 h2 s hs hp => ?_, fun h => if_neg (not_lt.2 h)⟩
  · have e : r.target v = r.withoutBackup v := by
      unfold Supply.target
      rw [if_pos h1, if_neg (by rw [h2]; decide)]
    rw [e]
    exact c81_without_backup r v ht hn
  · have e : r.target v = r.withBackup v := by
      unfold Supply.target
      rw [if_pos h1, if_pos h2]
    have no : ¬ Absent r v (r.n - 1) (fun x => r.threshold < x) := fun ha => absurd hp (not_lt.2 (ha s hs.1 hs.2.1 hs.2.2.1))
    have w := c81_with_backup r v ht h2
    rw [e]
    cases hb : r.withBackup v with
    | none => rw [hb] at w; exact absurd w.1 no
    | some t =>
      rw [hb] at w
      rcases w with w | w
      · exact ⟨t, rfl, w.1⟩
      · exact absurd w.1 no

/-! ## The conductances -/

private theorem put_same {α : Type} (f : ℕ → α) (i : ℕ) (x : α) : put f i x i = x := if_pos rfl

private theorem put_other {α : Type} (f : ℕ → α) (i j : ℕ) (x : α) (h : j ≠ i) : put f i x j = f j := if_neg h

/-- The admittance matrix holds the active conductances on its diagonal and nothing else. -/
def Diagonal (r : Supply K) : Prop :=
  (∀ p < r.n, r.adm (p * r.n + p) = r.activeG p) ∧ ∀ p < r.n, ∀ q < r.n, p ≠ q → r.adm (p * r.n + q) = 0

private theorem diag_inj (n p q p' : ℕ) (hp : q < n) (hp' : p' < n) (h : p * n + q = p' * n + p') : p = p' ∧ q = p' := by
  have hn : 0 < n := by omega
  have h1 : (p * n + q) / n = p := by
    rw [mul_comm, Nat.mul_add_div hn, Nat.div_eq_of_lt hp, add_zero]
  have h2 : (p' * n + p') / n = p' := by
    rw [mul_comm, Nat.mul_add_div hn, Nat.div_eq_of_lt hp', add_zero]
  have e : p = p' := by rw [← h1, h, h2]
  subst e
  exact ⟨rfl, by omega⟩

private theorem admittance_spec (r : Supply K) (k : ℕ) (hk : k ≤ r.n) (hd : Diagonal r) (ht : 0 ≤ r.gTol) :
    let q := (List.range k).foldl Supply.admittance r
    q.n = r.n ∧ q.g = r.g ∧ q.gTol = r.gTol ∧ q.total = r.total ∧ q.active = r.active ∧ Diagonal q ∧
      (∀ p < k, |q.activeG p - r.g p| ≤ r.gTol) ∧ ∀ p, q.activeG p = r.activeG p ∨ q.activeG p = r.g p := by
  induction k with
  | zero => exact ⟨rfl, rfl, rfl, rfl, rfl, hd, fun p hp => absurd hp (Nat.not_lt_zero p), fun _ => Or.inl rfl⟩
  | succ k ih =>
    have ih := ih (by omega)
    simp only [List.range_succ, List.foldl_append, List.foldl_cons, List.foldl_nil] at ih ⊢
    generalize (List.range k).foldl Supply.admittance r = q at ih ⊢
    obtain ⟨h1, h2, h3, h3t, h3a, h4, h5, h6⟩ := ih
    unfold Supply.admittance
    by_cases hc : |q.activeG k - q.g k| > q.gTol
    · rw [if_pos hc]
      refine ⟨h1, h2, h3, h3t, h3a, ⟨fun p hp => ?_, fun p hp s hs hps => ?_⟩, fun p hp => ?_, fun p => ?_⟩
      · simp only at hp ⊢
        by_cases e : p = k
        · subst e
          rw [put_same, put_same]
        · rw [put_other _ _ _ _ e, put_other _ _ _ _ ?_]
          · exact h4.1 p hp
          · intro he
            have := diag_inj q.n p p k hp (by omega) he
            exact e this.1
      · simp only at hp hs ⊢
        rw [put_other _ _ _ _ ?_]
        · exact h4.2 p hp s hs hps
        · intro he
          have := diag_inj q.n p s k hs (by omega) he
          exact hps (this.1.trans this.2.symm)
      · simp only
        by_cases e : p = k
        · subst e
          rw [put_same, h2, sub_self, abs_zero]
          exact ht
        · rw [put_other _ _ _ _ e]
          exact h5 p (by omega)
      · simp only
        by_cases e : p = k
        · subst e
          rw [put_same, h2]
          exact Or.inr rfl
        · rw [put_other _ _ _ _ e]
          exact h6 p
    · rw [if_neg hc]
      refine ⟨h1, h2, h3, h3t, h3a, h4, fun p hp => ?_, h6⟩
      by_cases e : p = k
      · subst e
        rw [← h2, ← h3]
        exact not_lt.1 hc
      · exact h5 p (by omega)

/-- **C81**: a step puts on the active input the conductance that draws the whole load at the present voltage, and the small
conductance on all other inputs, each up to the tolerance of conductance; the admittance matrix stays diagonal. -/
theorem c81_step (r : Supply K) (v : ℕ → K) (hd : Diagonal r) (ht : 0 ≤ r.gTol) :
    (r.step v).n = r.n ∧ Diagonal (r.step v) ∧ (r.step v).active = r.active ∧
      (r.step v).total = (if 0 < r.added then r.added else r.loadOn + r.aux1 + r.aux2) ∧
      (∀ p < r.n, r.active ≠ some p → |(r.step v).adm (p * r.n + p) - r.unselG| ≤ r.gTol) ∧
      ∀ a < r.n, r.active = some a → dblEps < v a →
        ∃ g, |(r.step v).adm (a * r.n + a) - g| ≤ r.gTol ∧ v a * g * v a = (r.step v).total := by
  obtain ⟨h1, h2, h3, h3t, h3a, h4, h5, -⟩ := admittance_spec (r.conductances v) r.n le_rfl hd ht
  have e : r.step v = (List.range r.n).foldl Supply.admittance (r.conductances v) := rfl
  rw [← e] at h1 h2 h3 h3t h3a h4 h5
  have hn : (r.step v).n = r.n := h1
  have hda : ∀ p < r.n, (r.step v).adm (p * r.n + p) = (r.step v).activeG p := by
    intro p hp
    have := h4.1 p (by rw [hn]; exact hp)
    rwa [hn] at this
  refine ⟨hn, h4, h3a, h3t, fun p hp hne => ?_, fun a ha hac hv => ?_⟩
  · rw [hda p hp]
    have : (r.conductances v).g p = r.unselG := by
      unfold Supply.conductances
      cases hA : r.active with
      | none => rfl
      | some a =>
        simp only
        have hpa : p ≠ a := fun e => hne (by rw [hA, e])
        by_cases hc : v a > dblEps
        · rw [if_pos hc, put_other _ _ _ _ hpa]
        · rw [if_neg hc]
    rw [← this]
    exact h5 p hp
  · refine ⟨(r.conductances v).g a, ?_, ?_⟩
    · rw [hda a ha]
      exact h5 a ha
    · have v0 : v a ≠ 0 := (dblEps_pos.trans hv).ne'
      have hg : (r.conductances v).g a = r.powerLoad / (v a * v a) := by
        unfold Supply.conductances
        rw [hac]
        simp only
        rw [if_pos hv, put_same]
      rw [hg, h3t]
      show v a * (r.powerLoad / (v a * v a)) * v a = r.powerLoad
      rw [mul_right_comm, mul_div_cancel₀]
      exact mul_ne_zero v0 v0

/-! ## The solutions of the network -/

/-- **C81**: a converged solution is accepted exactly when the source to use is the active one (or has no positive voltage) and no
input is negative.  The supply then draws its total load from that source alone, and its power is valid exactly when that
source is above the under-voltage limit. -/
theorem c81_confirm (r : Supply K) (v : ℕ → K) (n : ℕ) (hn : 0 < n) :
    let q := (r.confirm v n).2
    ((r.confirm v n).1 = .confirm ↔ q.active = r.active ∧ ∀ s < r.n, 0 ≤ v s) ∧ (r.confirm v n).1 ≠ .delay ∧
      (∀ s, r.target v = some s → 0 < v s → q.active = some s ∧ q.inCurrent s * v s = r.total ∧ q.outPower s = r.total ∧
        ∀ t, t ≠ s → q.inCurrent t = 0 ∧ q.outPower t = 0) ∧
      (∀ s, r.target v = some s → v s ≤ 0 → q.active = r.active) ∧
      (r.target v = none → q.active = none ∧ ∀ t, q.inCurrent t = 0 ∧ q.outPower t = 0) ∧
      (q.powerValid = true ↔ ∃ s, r.target v = some s ∧ r.under < v s) ∧
      (q.backupInUse = true ↔ r.backup = true ∧ r.target v = some (r.n - 1)) := by
  have hneg : (List.range r.n).any (fun s => decide (0 > v s)) = true ↔ ¬ ∀ s < r.n, 0 ≤ v s := by
    simp
  -- the fields of the flow
  have fields : ∀ q : Supply K, (q = r.flowTo v (r.target v) ∨ q = { r.flowTo v (r.target v) with
      switches := (r.flowTo v (r.target v)).switches + 1 }) →
      (∀ s, r.target v = some s → 0 < v s → q.active = some s ∧ q.inCurrent s * v s = r.total ∧ q.outPower s = r.total ∧
        ∀ t, t ≠ s → q.inCurrent t = 0 ∧ q.outPower t = 0) ∧
      (∀ s, r.target v = some s → v s ≤ 0 → q.active = r.active) ∧
      (r.target v = none → q.active = none ∧ ∀ t, q.inCurrent t = 0 ∧ q.outPower t = 0) ∧
      (q.powerValid = true ↔ ∃ s, r.target v = some s ∧ r.under < v s) ∧
      (q.backupInUse = true ↔ r.backup = true ∧ r.target v = some (r.n - 1)) := by
    intro q hq
    have e1 : q.active = (r.flowTo v (r.target v)).active := by rcases hq with rfl | rfl <;> rfl
    have e2 : q.inCurrent = (r.flowTo v (r.target v)).inCurrent := by rcases hq with rfl | rfl <;> rfl
    have e3 : q.outPower = (r.flowTo v (r.target v)).outPower := by rcases hq with rfl | rfl <;> rfl
    have e4 : q.powerValid = (r.flowTo v (r.target v)).powerValid := by rcases hq with rfl | rfl <;> rfl
    have e5 : q.backupInUse = (r.flowTo v (r.target v)).backupInUse := by rcases hq with rfl | rfl <;> rfl
    rw [e1, e2, e3, e4, e5]
    cases hT : r.target v with
    | none =>
      refine ⟨fun s h => by simp at h, fun s h => by simp at h, fun _ => ⟨rfl, fun t => ⟨rfl, rfl⟩⟩, ?_, ?_⟩
      · simp [Supply.flowTo]
      · simp [Supply.flowTo]
    | some s =>
      refine ⟨fun s' h hv => ?_, fun s' h hv => ?_, fun h => by simp at h, ?_, ?_⟩
      · have e : s' = s := (Option.some.inj h).symm
        subst e
        have hv' : v s' > 0 := hv
        unfold Supply.flowTo
        simp only [if_pos hv', if_true]
        refine ⟨trivial, div_mul_cancel₀ _ hv.ne', trivial, fun t hts => ?_⟩
        simp only [if_neg hts]
        exact ⟨trivial, trivial⟩
      · have e : s' = s := (Option.some.inj h).symm
        subst e
        exact if_neg (not_lt.2 hv)
      · simp [Supply.flowTo]
      · simp [Supply.flowTo]
  unfold Supply.confirm
  rw [if_pos hn]
  simp only
  by_cases hc : r.active = (r.flowTo v (r.target v)).active
  · rw [if_pos hc]
    refine ⟨?_, ?_, fields _ (Or.inl rfl)⟩
    · simp only
      by_cases hb : (List.range r.n).any (fun s => decide (0 > v s)) = true
      · rw [if_pos hb]
        exact ⟨fun h => by simp at h, fun h => absurd h.2 (hneg.1 hb)⟩
      · rw [if_neg hb]
        exact ⟨fun _ => ⟨hc.symm, not_not.1 fun h => hb (hneg.2 h)⟩, fun _ => rfl⟩
    · simp only
      split_ifs <;> simp
  · rw [if_neg hc]
    refine ⟨?_, by simp, fields _ (Or.inr rfl)⟩
    simp only
    exact ⟨fun h => by simp at h, fun h => absurd h.1.symm hc⟩

/-- One solution of the network within a major step. -/
structure IpsPass (K : Type) where
  v : ℕ → K
  n : ℕ

/-- The supply after a sequence of solutions, and how many of them with no negative input it has rejected. -/
def ipsRun : List (IpsPass K) → Supply K → ℕ × Supply K
  | [], r => (0, r)
  | p :: l, r =>
    let c := (r.step p.v).confirm p.v p.n
    ((ipsRun l c.2).1 + (if c.1 = .reject ∧ ∀ s < r.n, 0 ≤ p.v s then 1 else 0), (ipsRun l c.2).2)

private theorem fold_switches (r : Supply K) (l : List ℕ) : (l.foldl Supply.admittance r).switches = r.switches ∧
    (l.foldl Supply.admittance r).maxSwitches = r.maxSwitches ∧ (l.foldl Supply.admittance r).n = r.n ∧
    (l.foldl Supply.admittance r).active = r.active := by
  induction l generalizing r with
  | nil => exact ⟨rfl, rfl, rfl, rfl⟩
  | cons k l ih =>
    rw [List.foldl_cons]
    obtain ⟨h1, h2, h3, h4⟩ := ih (r.admittance k)
    have e : (r.admittance k).switches = r.switches ∧ (r.admittance k).maxSwitches = r.maxSwitches ∧ (r.admittance k).n = r.n ∧
        (r.admittance k).active = r.active := by
      unfold Supply.admittance
      split_ifs <;> exact ⟨rfl, rfl, rfl, rfl⟩
    exact ⟨h1.trans e.1, h2.trans e.2.1, h3.trans e.2.2.1, h4.trans e.2.2.2⟩

private theorem step_switches (r : Supply K) (v : ℕ → K) : (r.step v).switches = r.switches ∧
    (r.step v).maxSwitches = r.maxSwitches ∧ (r.step v).n = r.n ∧ (r.step v).active = r.active :=
  fold_switches (r.conductances v) (List.range r.n)

private theorem flow_switches (r : Supply K) (v : ℕ → K) (t : Option ℕ) : (r.flowTo v t).switches = r.switches ∧
    (r.flowTo v t).maxSwitches = r.maxSwitches ∧ (r.flowTo v t).n = r.n := by
  cases t <;> exact ⟨rfl, rfl, rfl⟩

private theorem stay_flow (r : Supply K) (v : ℕ → K) : (r.flowTo v r.active).active = r.active := by
  cases h : r.active with
  | none => rfl
  | some a =>
    unfold Supply.flowTo
    simp only
    split_ifs
    · rfl
    · exact h

private theorem confirm_switches (r : Supply K) (v : ℕ → K) (n : ℕ) :
    (r.confirm v n).2.maxSwitches = r.maxSwitches ∧ (r.confirm v n).2.n = r.n ∧
      (r.confirm v n).2.switches ≤ max r.switches r.maxSwitches ∧
      r.switches + (if (r.confirm v n).1 = .reject ∧ ∀ s < r.n, 0 ≤ v s then 1 else 0) ≤ (r.confirm v n).2.switches := by
  obtain ⟨f1, f2, f3⟩ := flow_switches r v (r.target v)
  unfold Supply.confirm
  by_cases hn : n > 0
  · rw [if_pos hn]
    simp only
    by_cases hc : r.active = (r.flowTo v (r.target v)).active
    · rw [if_pos hc]
      simp only
      refine ⟨f2, f3, by rw [f1]; exact le_max_left _ _, ?_⟩
      rw [f1, if_neg ?_]
      · exact le_rfl
      · rintro ⟨h1, h2⟩
        have : ¬ (List.range r.n).any (fun s => decide (0 > v s)) = true := by simpa using h2
        rw [if_neg this] at h1
        simp at h1
    · rw [if_neg hc]
      simp only
      have hlt : r.switches < r.maxSwitches := by
        by_contra hge
        apply hc
        have : r.target v = r.active := if_neg hge
        rw [this, stay_flow]
      refine ⟨f2, f3, ?_, ?_⟩
      · rw [f1]
        exact le_trans hlt (le_max_right _ _)
      · rw [f1]
        split_ifs <;> omega
  · rw [if_neg hn]
    refine ⟨rfl, rfl, le_max_left _ _, ?_⟩
    simp

/-- **C81**: within a major step, whatever the voltages, the supply rejects no more solutions with non-negative inputs than it may
switch. -/
theorem c81_switches (l : List (IpsPass K)) (r : Supply K) (h0 : r.switches = 0) : (ipsRun l r).1 ≤ r.maxSwitches := by
  have key : ∀ (l : List (IpsPass K)) (r : Supply K), r.switches ≤ r.maxSwitches → (ipsRun l r).1 + r.switches ≤ r.maxSwitches := by
    intro l
    induction l with
    | nil => exact fun r h => by simpa [ipsRun] using h
    | cons p l ih =>
      intro r h
      obtain ⟨s1, s2, s3, -⟩ := step_switches r p.v
      obtain ⟨c1, -, c3, c4⟩ := confirm_switches (r.step p.v) p.v p.n
      rw [s1, s2, max_eq_right h] at c3
      rw [s1, s3] at c4
      rw [s2] at c1
      have := ih ((r.step p.v).confirm p.v p.n).2 (by rw [c1]; exact c3)
      rw [c1] at this
      unfold ipsRun
      simp only
      omega
  have := key l r (by omega)
  omega

/-- **C81**: at the end of a major step the switches are allowed again, and the waste heat is the fraction of the supply's own load,
with its bias, while the power is valid. -/
theorem c81_end (r : Supply K) (v : ℕ → K) : (r.flows v).switches = 0 ∧ (r.flows v).active = r.active ∧
    (r.powerValid = false → (r.flows v).heat = 0) ∧
    (r.powerValid = true → (r.flows v).heat = (r.load + r.bias.getD 0) * r.thermal) := by
  refine ⟨rfl, rfl, fun h => ?_, fun h => ?_⟩
  · unfold Supply.flows
    simp [h]
  · unfold Supply.flows
    cases r.bias <;> simp [h]

/-! ## What fails -/

/-- **C81** (failure of the total current and power): the comments promise the current and power drawn from all inputs, but the sum goes
along the first row of the admittance matrix in place of its diagonal, so it is the first input alone, whichever is
active. -/
theorem c81_total_first (r : Supply K) (v : ℕ → K) (hn : 0 < r.n) (hd : Diagonal r) :
    (r.flows v).flux = v 0 * r.activeG 0 ∧ (r.flows v).power = v 0 * r.activeG 0 * v 0 := by
  have key : ∀ f : ℕ → K, (∀ i < r.n, i ≠ 0 → f i = 0) → ((List.range r.n).map f).sum = f 0 := by
    intro f hf
    obtain ⟨m, hm⟩ : ∃ m, r.n = m + 1 := ⟨r.n - 1, by omega⟩
    rw [hm, List.range_succ_eq_map, List.map_cons, List.sum_cons]
    have : (List.map f (List.map Nat.succ (List.range m))).sum = 0 := by
      apply List.sum_eq_zero
      intro x hx
      rw [List.map_map, List.mem_map] at hx
      obtain ⟨i, hi, rfl⟩ := hx
      exact hf (i + 1) (by rw [List.mem_range] at hi; omega) (by omega)
    rw [this, add_zero]
  have hz : ∀ i < r.n, i ≠ 0 → r.adm i = 0 := by
    intro i hi h0
    have := hd.2 0 hn i hi (Ne.symm h0)
    simpa using this
  have h0 : r.adm 0 = r.activeG 0 := by simpa using hd.1 0 hn
  refine ⟨?_, ?_⟩
  · show ((List.range r.n).map fun i => v i * r.adm i).sum = _
    rw [key _ fun i hi h => by rw [hz i hi h, mul_zero], h0]
  · show ((List.range r.n).map fun i => v i * r.adm i * v i).sum = _
    rw [key _ fun i hi h => by rw [hz i hi h, mul_zero, zero_mul], h0]

/-- **C81** (failure of malfunctions and commands): once the allowed switches are used up, which with the default of none is always,
the source is never changed: neither malfunctions nor the command to turn off have any effect, and every converged
solution without negative inputs is accepted. -/
theorem c81_used_up (r : Supply K) (v : ℕ → K) (n : ℕ) (hn : 0 < n) (hs : r.maxSwitches ≤ r.switches) (hv : ∀ s < r.n, 0 ≤ v s) :
    (r.confirm v n).1 = .confirm ∧ (r.confirm v n).2.active = r.active ∧
      ∀ a, r.active = some a → ((r.confirm v n).2.powerValid = true ↔ r.under < v a) := by
  have ht : r.target v = r.active := if_neg (not_lt.2 hs)
  obtain ⟨h1, -, -, -, -, h6, -⟩ := c81_confirm r v n hn
  have ha : (r.confirm v n).2.active = r.active := by
    unfold Supply.confirm
    rw [if_pos hn, ht]
    simp only [stay_flow, if_true]
  refine ⟨h1.2 ⟨ha, hv⟩, ha, fun a e => ?_⟩
  rw [h6, ht, e]
  simp

end Field

/-! ## Cases -/

/-- Two primary sources and a back-up source; the second primary is at 120 V. -/
private def ipsCase (backup : Bool) (max : ℕ) (cmdOn : Bool) (active : Option ℕ) : Supply ℚ where
  n := 3
  backup := backup
  under := 80
  threshold := 100
  tol := 1
  thermal := 1 / 2
  backMin := 20
  backMax := 90
  gTol := 0
  maxSwitches := max
  cmdUsed := true
  unselG := 0
  load := 120
  loadOn := 120
  aux1 := 0
  aux2 := 0
  added := 0
  bias := none
  malfAll := false
  malf := fun _ => false
  cmdOn := cmdOn
  active := active
  switches := 0
  total := 120
  g := fun _ => 0
  activeG := fun _ => 0
  adm := fun _ => 0
  outPower := fun _ => 0
  supplyV := fun _ => 0
  inCurrent := fun _ => 0
  inVoltage := fun _ => 0
  powerValid := true
  backupInUse := false
  backupInRange := false
  heatOn := 0
  heat := 0
  flux := 0
  power := 0

private def volts (a b c : ℚ) : ℕ → ℚ := fun i => if i = 0 then a else if i = 1 then b else c

/-- The selections: above the threshold, above the limit, the back-up source above its range, within its range, none. -/
example : (ipsCase true 3 true (some 0)).withBackup (volts 110 120 130) = some 1 ∧
    (ipsCase true 3 true (some 0)).withBackup (volts 90 85 50) = some 0 ∧
    (ipsCase true 3 true (some 0)).withBackup (volts 90 85 130) = some 2 ∧
    (ipsCase true 3 true (some 0)).withBackup (volts 70 75 50) = some 2 ∧
    (ipsCase true 3 true (some 0)).withBackup (volts 70 75 130) = none ∧
    (ipsCase true 3 false (some 0)).withBackup (volts 110 120 130) = none ∧
    (ipsCase false 3 true (some 0)).withoutBackup (volts 120 (241 / 2) 50) = some 0 ∧
    (ipsCase false 3 true none).withoutBackup (volts 110 120 (241 / 2)) = some 1 := by decide +kernel

/-- Source 1 is active and draws 120 W, but the total power is zero. -/
example : (((ipsCase false 3 true (some 1)).step (volts 110 120 50)).flows (volts 110 120 50)).power = 0 ∧
    ((ipsCase false 3 true (some 1)).step (volts 110 120 50)).adm 4 = 120 / (120 * 120) ∧
    (((ipsCase false 3 true (some 1)).step (volts 110 120 50)).confirm (volts 110 120 50) 5).1 = .confirm := by decide +kernel

example : Diagonal (ipsCase false 3 true (some 1)) := ⟨fun _ _ => rfl, fun _ _ _ _ _ => rfl⟩

/-- Turned off, but no switches are allowed. -/
example : ((ipsCase false 0 false (some 0)).confirm (volts 110 120 50) 5).1 = .confirm ∧
    ((ipsCase false 0 false (some 0)).confirm (volts 110 120 50) 5).2.powerValid = true ∧
    ((ipsCase false 1 false (some 0)).confirm (volts 110 120 50) 5).1 = .reject ∧
    ((ipsCase false 1 false (some 0)).confirm (volts 110 120 50) 5).2.powerValid = false := by decide +kernel

end Gunns.Props
