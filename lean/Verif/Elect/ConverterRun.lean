import Verif.Elect.ConverterLemmas

/-!
# The number of rejections by a converter in one major step

Each rejection by the output pays for a change of bias or limit state or for a trip, and these are limited.
-/

set_option linter.unusedSectionVars false

namespace Gunns.Conv

open Gunns Gunns.Elements

variable {K : Type _} [Field K] [LinearOrder K] [IsStrictOrderedRing K]

/-- Trips left. -/
def tripWeight (t : Sw.Trip K) : Nat := if t.tripped || t.inhibit then 0 else 1

/-- Changes left in a limit state when no flips are left. -/
def Lim.weight : Lim → Nat
  | .no => 0
  | .oc => 1
  | .uv => 1
  | .ov => 2

/-- Changes of state left to the output. -/
def Out.weight (o : Out K) : Nat :=
  (2 * (o.flipsLimit - o.reverseFlips) + (if o.reverse then 1 else 0)) +
  (3 * (o.flipsLimit - o.limitFlips) + o.limit.weight) +
  (tripWeight o.ov + tripWeight o.uv + tripWeight o.oc)

/-- A rejection is paid for. -/
def Pays (r : SolRes) (o : Out K) (r' : SolRes) (o' : Out K) : Prop :=
  o'.weight ≤ o.weight ∧ (r' = .reject → r = .reject ∨ o'.weight < o.weight)

theorem Pays.refl (r : SolRes) (o : Out K) : Pays r o r o := ⟨le_rfl, Or.inl⟩

theorem Pays.trans {r r1 r2 : SolRes} {o o1 o2 : Out K} (h1 : Pays r o r1 o1) (h2 : Pays r1 o1 r2 o2) :
    Pays r o r2 o2 := by
  refine ⟨h2.1.trans h1.1, fun h => ?_⟩
  rcases h2.2 h with g | g
  · rcases h1.2 g with g | g
    · exact Or.inl g
    · exact Or.inr (lt_of_le_of_lt h2.1 g)
  · exact Or.inr (lt_of_lt_of_le g h1.1)

theorem check_pays (b : Bool) (t : Sw.Trip K) (r : SolRes) (x : K) (n : Nat) :
    tripWeight (t.check b r x n).1 ≤ tripWeight t ∧
    ((t.check b r x n).2.1 = .reject → r = .reject ∨ tripWeight (t.check b r x n).1 < tripWeight t) := by
  unfold Sw.Trip.check
  cases hi : t.inhibit with
  | true =>
    have : tripWeight t = 0 := by unfold tripWeight; rw [hi]; simp
    have h2 : tripWeight t.reset = 0 := by unfold tripWeight Sw.Trip.reset; dsimp only; rw [hi]; simp
    have h3 : t.reset.inhibit = true := hi
    dsimp only
    rw [if_pos rfl, h3]
    simp only [Bool.or_true, Bool.true_or, Bool.not_true, Bool.false_eq_true, if_false]
    rw [h2]
    exact ⟨Nat.zero_le _, Or.inl⟩
  | false =>
    dsimp only
    rw [if_neg Bool.false_ne_true]
    cases ht : t.tripped with
    | true =>
      simp only [Bool.true_or, Bool.not_true, Bool.false_eq_true, if_false]
      exact ⟨le_rfl, Or.inl⟩
    | false =>
      have hw : tripWeight t = 1 := by unfold tripWeight; rw [hi, ht]; simp
      have hw2 : tripWeight ({ t with tripped := true } : Sw.Trip K) = 0 := by unfold tripWeight; simp
      split
      · split
        · split
          · dsimp only
            rw [hw2, hw]
            exact ⟨by omega, fun _ => Or.inr (by omega)⟩
          · split
            · exact ⟨le_rfl, fun h => by cases h⟩
            · exact ⟨le_rfl, Or.inl⟩
        · exact ⟨le_rfl, Or.inl⟩
      · exact ⟨le_rfl, Or.inl⟩

theorem updateBias_pays (o : Out K) (r : SolRes) (n : Nat) (b : Bool) :
    Pays r o (o.updateBias r n b).1 (o.updateBias r n b).2 := by
  have hclear : Pays r o
      (if o.reverse ≠ ({ o with reverse := false } : Out K).reverse then
        (SolRes.reject, { ({ o with reverse := false } : Out K) with inputPower := 0 })
        else (r, { o with reverse := false })).1
      (if o.reverse ≠ ({ o with reverse := false } : Out K).reverse then
        (SolRes.reject, { ({ o with reverse := false } : Out K) with inputPower := 0 })
        else (r, { o with reverse := false })).2 := by
    dsimp only
    cases h : o.reverse with
    | false =>
      rw [if_neg (by simp)]
      refine ⟨?_, Or.inl⟩
      unfold Out.weight
      dsimp only
      rw [h]
    | true =>
      rw [if_pos (by simp)]
      have : ({ o with
          reverse := false
          inputPower := 0 } : Out K).weight < o.weight := by
        unfold Out.weight
        dsimp only
        rw [h]
        simp only [Bool.false_eq_true, if_false, if_true]
        omega
      exact ⟨this.le, fun _ => Or.inr this⟩
  unfold Out.updateBias
  dsimp only
  by_cases h1 : o.limit = .oc ∨ (o.limit = .no ∧ o.reg.isVoltage = false)
  · rw [if_pos h1]
    exact hclear
  · rw [if_neg h1]
    by_cases h3 : o.pot ≤ o.sourceVoltage
    · rw [if_pos h3]
      exact hclear
    · rw [if_neg h3]
      by_cases h4 : n > 0 ∧ o.reverseFlips < o.flipsLimit ∧ (o.reverse || b) = false
      · rw [if_pos h4]
        have hrev : o.reverse = false := by
          have := h4.2.2
          cases ho : o.reverse
          · rfl
          · rw [ho] at this; simp at this
        dsimp only
        rw [if_pos (by rw [hrev]; decide)]
        have : ({ o with
            reverse := true
            reverseFlips := o.reverseFlips + 1
            inputPower := 0 } : Out K).weight < o.weight := by
          unfold Out.weight
          dsimp only
          rw [hrev]
          simp only [Bool.false_eq_true, if_false, if_true]
          have := h4.2.1
          omega
        exact ⟨this.le, fun _ => Or.inr this⟩
      · rw [if_neg h4, if_neg (by simp)]
        exact Pays.refl r o

theorem rejectWith_pays (o : Out K) (r : SolRes) (state : Lim)
    (h : (o.limitFlips < o.flipsLimit ∧ o.limit ≠ state ∧ (state = .no → o.limit ≠ .no)) ∨
      state.weight < o.limit.weight) :
    Pays r o (o.rejectWith state).1 (o.rejectWith state).2 := by
  have : (o.rejectWith state).2.weight < o.weight := by
    unfold Out.rejectWith Out.weight
    dsimp only
    generalize hl : o.limit = l at h ⊢
    rcases h with ⟨h1, h2, h3⟩ | h
    · cases state <;> cases l <;> simp only [Lim.weight, ne_eq, not_true_eq_false, not_false_eq_true, reduceCtorEq, if_true, if_false, true_implies, false_implies] at h2 h3 ⊢ <;> omega
    · have : o.limitFlips ≤ if state ≠ .no then o.limitFlips + 1 else o.limitFlips := by split <;> omega
      omega
  exact ⟨this.le, fun _ => Or.inr this⟩

theorem currentLimit_pays (o : Out K) (r : SolRes) (v i : K) :
    Pays r o (o.currentLimit r v i).1 (o.currentLimit r v i).2 := by
  unfold Out.currentLimit
  by_cases h1 : o.limit = .oc ∧ v > o.voltageSetpoint
  · rw [if_pos h1]
    exact rejectWith_pays o r .no (Or.inr (by rw [h1.1]; decide))
  · rw [if_neg h1]
    by_cases h2 : o.limit = .no ∧ (o.oc.limit > 0 ∧ o.limitFlips < o.flipsLimit) ∧ i > o.oc.limit
    · rw [if_pos h2]
      exact rejectWith_pays o r .oc (Or.inl ⟨h2.2.1.2, by rw [h2.1]; decide, fun h => by cases h⟩)
    · rw [if_neg h2]
      exact Pays.refl r o

theorem voltageLimit_pays (sq : K → K) (o : Out K) (r : SolRes) (v i : K) :
    Pays r o (o.voltageLimit sq r v i).2.1 (o.voltageLimit sq r v i).2.2 := by
  unfold Out.voltageLimit
  dsimp only
  cases hl : o.limit with
  | oc =>
    dsimp only
    split
    · rename_i h
      exact rejectWith_pays o r .ov (Or.inl ⟨h.1.2, by rw [hl]; decide, fun h => by cases h⟩)
    · split
      · exact rejectWith_pays o r .no (Or.inr (by rw [hl]; decide))
      · exact Pays.refl r o
  | uv =>
    dsimp only
    split
    · rename_i h
      exact rejectWith_pays o r .oc (Or.inl ⟨h.1.2.1, by rw [hl]; decide, fun h => by cases h⟩)
    · split
      · rename_i h
        exact rejectWith_pays o r .ov (Or.inl ⟨h.1.2, by rw [hl]; decide, fun h => by cases h⟩)
      · split
        · exact rejectWith_pays o r .no (Or.inr (by rw [hl]; decide))
        · exact Pays.refl r o
  | ov =>
    dsimp only
    split
    · exact rejectWith_pays o r .uv (Or.inr (by rw [hl]; decide))
    · split
      · exact rejectWith_pays o r .uv (Or.inr (by rw [hl]; decide))
      · exact Pays.refl r o
  | no =>
    dsimp only
    split
    · rename_i h
      exact rejectWith_pays o r .ov (Or.inl ⟨h.1.2, by rw [hl]; decide, fun h => by cases h⟩)
    · split
      · rename_i h
        exact rejectWith_pays o r .uv (Or.inl ⟨h.1.2, by rw [hl]; decide, fun h => by cases h⟩)
      · exact Pays.refl r o

theorem updateLimit_pays (sq : K → K) (o : Out K) (r : SolRes) (v i : K) :
    Pays r o (o.updateLimit sq r v i).2.1 (o.updateLimit sq r v i).2.2 := by
  unfold Out.updateLimit
  split
  · split
    · exact currentLimit_pays o r v i
    · exact voltageLimit_pays sq o r v i
  · refine ⟨?_, Or.inl⟩
    unfold Out.weight
    dsimp only
    have : Lim.no.weight = 0 := rfl
    omega

theorem checkTrips_pays (o : Out K) (r : SolRes) (v i : K) (n : Nat) :
    Pays r o (o.checkTrips r v i n).1 (o.checkTrips r v i n).2 := by
  unfold Out.checkTrips
  split
  · dsimp only
    have h1 : Pays r o
        (if !(o.limiting && !o.reg.isVoltage) then
          ((o.uv.check false (o.ov.check true r v n).2.1 v n).2.1, { o with
            ov := (o.ov.check true r v n).1
            uv := (o.uv.check false (o.ov.check true r v n).2.1 v n).1 })
        else (r, o)).1
        (if !(o.limiting && !o.reg.isVoltage) then
          ((o.uv.check false (o.ov.check true r v n).2.1 v n).2.1, { o with
            ov := (o.ov.check true r v n).1
            uv := (o.uv.check false (o.ov.check true r v n).2.1 v n).1 })
        else (r, o)).2 := by
      split
      · obtain ⟨a1, a2⟩ := check_pays true o.ov r v n
        obtain ⟨b1, b2⟩ := check_pays false o.uv (o.ov.check true r v n).2.1 v n
        refine ⟨?_, fun h => ?_⟩
        · unfold Out.weight
          dsimp only
          omega
        · unfold Out.weight
          dsimp only at h ⊢
          rcases b2 h with g | g
          · rcases a2 g with g | g
            · exact Or.inl g
            · right; omega
          · right; omega
      · exact Pays.refl r o
    refine h1.trans ?_
    generalize (if !(o.limiting && !o.reg.isVoltage) then
          ((o.uv.check false (o.ov.check true r v n).2.1 v n).2.1, ({ o with
            ov := (o.ov.check true r v n).1
            uv := (o.uv.check false (o.ov.check true r v n).2.1 v n).1 } : Out K))
        else (r, o)) = q
    split
    · obtain ⟨a1, a2⟩ := check_pays true q.2.oc q.1 i n
      refine ⟨?_, fun h => ?_⟩
      · unfold Out.weight
        dsimp only
        omega
      · unfold Out.weight
        dsimp only at h ⊢
        rcases a2 h with g | g
        · exact Or.inl g
        · right; omega
    · exact Pays.refl q.1 q.2
  · exact Pays.refl r o

theorem computePower_weight (o : Out K) : o.computePower.2.weight = o.weight := by
  unfold Out.computePower
  split <;> rfl

theorem ownPower_weight (o : Out K) : o.ownPower.weight = o.weight := computePower_weight o

theorem judge_pays (sq : K → K) (o : Out K) (n : Nat) : Pays .confirm o (o.judge sq n).1 (o.judge sq n).2 := by
  unfold Out.judge
  dsimp only
  have h1 := updateBias_pays o .confirm n false
  split
  · refine h1.trans ?_
    generalize o.updateBias .confirm n false = q
    have h2 : Pays q.1 q.2 q.1 q.2.ownPower := ⟨(ownPower_weight q.2).le, Or.inl⟩
    exact h2.trans ((checkTrips_pays _ _ _ _ _).trans ((updateLimit_pays sq _ _ _ _).trans (updateBias_pays _ _ _ _)))
  · exact h1

/-! ## The input -/

/-- Changes of state left to the input. -/
def In.weight (i : In K) : Nat := tripWeight i.ov + tripWeight i.uv + (if i.overloaded then 0 else 1)

theorem inJudge_pays (i : In K) (n : Nat) :
    (i.judge n).2.weight ≤ i.weight ∧ ((i.judge n).1 = .reject → (i.judge n).2.weight < i.weight) := by
  have ht : ∀ v, (i.checkTrips v n).2.weight ≤ i.weight ∧
      ((i.checkTrips v n).1 = .reject → (i.checkTrips v n).2.weight < i.weight) := by
    intro v
    unfold In.checkTrips
    split
    · obtain ⟨a1, a2⟩ := check_pays true i.ov .confirm v n
      obtain ⟨b1, b2⟩ := check_pays false i.uv (i.ov.check true .confirm v n).2.1 v n
      unfold In.weight
      dsimp only
      refine ⟨by omega, fun h => ?_⟩
      rcases b2 h with g | g
      · rcases a2 g with g | g
        · cases g
        · omega
      · omega
    · exact ⟨le_rfl, fun h => by cases h⟩
  obtain ⟨h1, h2⟩ := ht (sensed i.sensor i.pot)
  unfold In.judge
  generalize i.checkTrips (sensed i.sensor i.pot) n = t at h1 h2
  dsimp only
  split
  · rename_i hc
    have hno : t.2.overloaded = false := by
      have := hc.2
      cases h : t.2.overloaded
      · rfl
      · rw [h] at this; simp at this
    split
    · have : ({ t.2 with
          voltage := t.2.computeVoltage
          overloaded := true
          voltageValid := decide (SolRes.reject ≠ SolRes.reject) } : In K).weight < i.weight := by
        refine lt_of_lt_of_le ?_ h1
        unfold In.weight
        dsimp only
        rw [hno]
        simp
      exact ⟨this.le, fun _ => this⟩
    · exact ⟨h1, fun h => by rw [hc.1] at h; cases h⟩
  · exact ⟨h1, h2⟩

/-! ## Sequences of calls -/

theorem contribute_weight (sq : K → K) (o : Out K) : (o.contribute sq).weight = o.weight := by
  unfold Out.contribute
  obtain ⟨f, r, he, -⟩ := estimateLoad_eq o
  rw [he]
  rfl

theorem happen_weights (sq : K → K) (p : Pair K) (e : Ev K) :
    ((happen sq p e).out.weight ≤ p.out.weight ∧ (OutRejects sq p e → (happen sq p e).out.weight < p.out.weight)) ∧
    ((happen sq p e).inp.weight ≤ p.inp.weight ∧ (InRejects p e → (happen sq p e).inp.weight < p.inp.weight)) := by
  have same : (happen sq p e).out.weight = p.out.weight → (happen sq p e).inp.weight = p.inp.weight →
      (¬ OutRejects sq p e) → (¬ InRejects p e) →
      ((happen sq p e).out.weight ≤ p.out.weight ∧ (OutRejects sq p e → (happen sq p e).out.weight < p.out.weight)) ∧
      ((happen sq p e).inp.weight ≤ p.inp.weight ∧ (InRejects p e → (happen sq p e).inp.weight < p.inp.weight)) :=
    fun a b c d => ⟨⟨a.le, fun h => absurd h c⟩, ⟨b.le, fun h => absurd h d⟩⟩
  cases e with
  | inMinor =>
    refine same ?_ ?_ id id
    · unfold happen Pair.inMinor
      dsimp only
      split
      · rfl
      · split
        · split
          · exact computePower_weight p.out
          · rfl
        · rfl
    · unfold happen Pair.inMinor
      dsimp only
      split
      · rfl
      · split
        · split <;> rfl
        · rfl
  | outMinor m =>
    refine same ?_ ?_ id id
    · unfold happen Pair.outMinor
      dsimp only
      split
      · rfl
      · rw [contribute_weight]
        split <;> split <;> (try split) <;> exact ownPower_weight p.out
    · unfold happen Pair.outMinor
      dsimp only
      split
      · rfl
      · split
        · split <;> rfl
        · rfl
  | pots a b => exact same rfl rfl id id
  | inReset m =>
    refine same ?_ ?_ id id
    · unfold happen Pair.inReset
      dsimp only
      split <;> rfl
    · unfold happen Pair.inReset
      dsimp only
      split <;> rfl
  | outReset => exact same rfl rfl id id
  | inConfirm m =>
    have ho : (happen sq p (.inConfirm m)).out = p.out := by
      unfold happen Pair.inConfirm
      dsimp only
      split
      · rfl
      · split <;> rfl
    refine ⟨⟨(congrArg Out.weight ho).le, fun h => absurd h id⟩, ?_⟩
    unfold happen InRejects Pair.inConfirm
    dsimp only
    obtain ⟨j1, j2⟩ := inJudge_pays p.inp m
    split
    · exact ⟨le_rfl, fun h => by cases h.1⟩
    · split
      · exact ⟨le_rfl, fun h => by cases h.1⟩
      · dsimp only
        split
        · refine ⟨j1, fun h => ?_⟩
          obtain ⟨ha, hb⟩ := h
          dsimp only at ha hb
          rw [if_pos hb] at ha
          exact j2 ha
        · refine ⟨j1, fun h => ?_⟩
          obtain ⟨ha, hb⟩ := h
          rw [if_pos hb] at ha
          exact j2 ha
  | outConfirm m =>
    have hi : (happen sq p (.outConfirm m)).inp = p.inp := by
      unfold happen Pair.outConfirm
      dsimp only
      split <;> rfl
    refine ⟨?_, (congrArg In.weight hi).le, fun h => absurd h id⟩
    unfold happen OutRejects Pair.outConfirm
    dsimp only
    obtain ⟨j1, j2⟩ := judge_pays sq p.out m
    split
    · exact ⟨le_rfl, fun h => by cases h.1⟩
    · dsimp only
      split
      · refine ⟨j1, fun h => ?_⟩
        obtain ⟨ha, hb⟩ := h
        dsimp only at ha hb
        rw [if_pos hb] at ha
        exact (j2 ha).resolve_left (by decide)
      · refine ⟨j1, fun h => ?_⟩
        obtain ⟨ha, hb⟩ := h
        dsimp only at ha hb
        rw [if_pos hb] at ha
        exact (j2 ha).resolve_left (by decide)

theorem count_le (sq : K → K) (P : Pair K → Ev K → Prop) (w : Pair K → Nat)
    (h : ∀ p e, w (happen sq p e) ≤ w p ∧ (P p e → w (happen sq p e) < w p)) :
    ∀ (es : List (Ev K)) (p : Pair K), countCalls sq P p es ≤ w p := by
  intro es
  induction es with
  | nil => intro p; exact Nat.zero_le _
  | cons e es ih =>
    intro p
    have h1 := ih (happen sq p e)
    obtain ⟨h2, h3⟩ := h p e
    unfold countCalls
    split
    · rename_i hp
      have := h3 hp
      omega
    · omega

theorem out_weight_le (o : Out K) : o.weight ≤ 5 * o.flipsLimit + 6 := by
  unfold Out.weight
  have h : ∀ t : Sw.Trip K, tripWeight t ≤ 1 := by
    intro t; unfold tripWeight; split <;> omega
  have h1 := h o.ov
  have h2 := h o.uv
  have h3 := h o.oc
  have h4 : o.limit.weight ≤ 2 := by cases o.limit <;> decide
  split <;> omega

theorem in_weight_le (i : In K) : i.weight ≤ 3 := by
  unfold In.weight
  have h : ∀ t : Sw.Trip K, tripWeight t ≤ 1 := by
    intro t; unfold tripWeight; split <;> omega
  have h1 := h i.ov
  have h2 := h i.uv
  split <;> omega

end Gunns.Conv
