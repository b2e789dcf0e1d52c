import Verif.Hs.FilterRun
import Std.Data.String.ToInt

/-!
# C44: the message filter lets through what it should

The redundancy filter displays a message unless `count` copies of it were displayed within the last
`interval` seconds.  It remembers at most `history` messages and at most `count` times of each, and
when it needs room it should forget the message displayed least recently.

The decision is right as long as there are no more than `history` different messages
(`c44_exact`, `c44_rate_limit_partial`); with more, no message is ever suppressed wrongly
(`c44_none_wrongly`) and the memory stays bounded (`c44_bounded`).

False of the code: it does not forget the oldest message, since the first entry of the map is never
looked at (`c44_first_kept`, `c44_purge_wrong`); with `history` 1 it erases the end of the map
(`c44_history_one`); and different messages can be taken for copies of each other
(`c44_key_collision`).
-/

namespace Gunns.Props

open Gunns.Hs Gunns.Hs.Spec

set_option linter.unusedSectionVars false

variable {K : Type _} [Field K] [LinearOrder K] [IsStrictOrderedRing K]

/-- **C44: the decision.**  If time does not run backwards and no more than `history` different
messages are offered, what happens to each message is what should: it is redundant exactly if
`count` copies of it were displayed within the last `interval` seconds. -/
theorem c44_exact (c : FilterCfg) (hcount : 1 ≤ c.count) (os : List (Offer K))
    (hos : os.Pairwise fun a b => a.time ≤ b.time)
    (hhist : ((os.map Offer.key).toFinset.card : Int) ≤ c.history) :
    ∃ f, Filter.run c os {} = .ok (f, verdicts c [] os) := by
  cases os with
  | nil => exact ⟨_, rfl⟩
  | cons o os =>
    refine FInv.run_exact hcount ((o :: os).map Offer.key).toFinset hhist (o :: os) hos o.time ?_ ?_
      {} [] (FInv.init c True _ _ (by omega))
    · intro o' ho'
      rcases List.mem_cons.mp ho' with rfl | ho'
      · exact le_refl _
      · exact (List.pairwise_cons.mp hos).1 o' ho'
    · intro o' ho'
      rw [List.mem_toFinset]
      exact List.mem_map_of_mem ho'

/-- The settings of the examples: one copy in a minute, two messages remembered. -/
def smallCfg : FilterCfg := { count := 1, history := 2 }

/-- An offer of a message with this text. -/
def say (t : ℚ) (text : String) : Offer ℚ :=
  { time := t, file := "f", line := 1, type := 2, subsys := "S", text := text }

/-- The verdicts of a run. -/
def verdictsOf (r : Out (Filter ℚ × List Verdict)) : Option (List Verdict) :=
  match r with
  | .ok p => some p.2
  | _ => none

theorem exists_of_verdictsOf {r : Out (Filter ℚ × List Verdict)} {vs : List Verdict}
    (h : verdictsOf r = some vs) : ∃ f, r = .ok (f, vs) := by
  cases r with
  | ok p => exact ⟨p.1, by simp only [verdictsOf, Option.some.injEq] at h; rw [← h]⟩
  | _ => simp [verdictsOf] at h

example : ∃ f, Filter.run smallCfg [say 0 "a", say 30 "a", say 60 "a", say 61 "a", say 61 "b"] {} =
    .ok (f, [.sent, .redundant, .redundant, .sent, .sent]) :=
  exists_of_verdictsOf (by decide +kernel)

/-- **C44: the rate, partial.**  No window of `interval` seconds has more than `count` displays of a
message.  Missing for the full claim: more than `history` different messages, for which it cannot
hold with any purging, and is needlessly violated by this one. -/
theorem c44_rate_limit_partial (c : FilterCfg) (hcount : 1 ≤ c.count) (os : List (Offer K))
    (hos : os.Pairwise fun a b => a.time ≤ b.time)
    (hhist : ((os.map Offer.key).toFinset.card : Int) ≤ c.history) (k : String) (a : K) :
    ∃ f vs, Filter.run c os {} = .ok (f, vs) ∧
      (((displays [] (os.zip vs)).filter fun s =>
        decide (s.2 = k ∧ a ≤ s.1 ∧ s.1 ≤ a + (c.interval : K))).length : Int) ≤ c.count := by
  obtain ⟨f, e⟩ := c44_exact c hcount os hos hhist
  refine ⟨f, _, e, ?_⟩
  exact rate_limit os k a [] (by simp [inWindow]; omega)

/-- **C44: nothing is suppressed wrongly.**  With any number of different messages, a message called
redundant has been displayed `count` times within the last `interval` seconds; the only mistake
possible is to display one that is redundant.  There is no undefined behaviour if `history` is 2 or
more. -/
theorem c44_none_wrongly (c : FilterCfg) (hcount : 1 ≤ c.count) (hhist : 2 ≤ c.history)
    (os : List (Offer K)) (hos : os.Pairwise fun a b => a.time ≤ b.time) :
    ∃ f vs, Filter.run c os {} = .ok (f, vs) ∧ vs.length = os.length ∧
      NoneWrongly c [] (os.zip vs) := by
  cases os with
  | nil => exact ⟨_, _, rfl, rfl, trivial⟩
  | cons o os =>
    obtain ⟨f, vs, now', e, hl, hw, -⟩ := FInv.run hcount hhist (o :: os) hos o.time
      (fun o' ho' => by
        rcases List.mem_cons.mp ho' with rfl | ho'
        · exact le_refl _
        · exact (List.pairwise_cons.mp hos).1 o' ho')
      {} [] (FInv.init c False ∅ _ (by omega))
    exact ⟨f, vs, e, hl, hw⟩

/-- **C44: the memory is bounded.**  At most `history` messages are remembered, each once, and of
each at least one and at most `count` times, which are the latest at which it was displayed. -/
theorem c44_bounded (c : FilterCfg) (hcount : 1 ≤ c.count) (hhist : 2 ≤ c.history)
    (os : List (Offer K)) (hos : os.Pairwise fun a b => a.time ≤ b.time) :
    ∃ f vs, Filter.run c os {} = .ok (f, vs) ∧ (f.map.length : Int) ≤ c.history ∧
      (f.map.map Prod.fst).Nodup ∧
      ∀ e ∈ f.map, 1 ≤ e.2.length ∧ (e.2.length : Int) ≤ c.count ∧
        ∃ d, ((displays [] (os.zip vs)).filter fun s => decide (s.2 = e.1)).map Prod.fst = d ++ e.2 := by
  cases os with
  | nil => exact ⟨_, _, rfl, by simp; omega, by simp, by simp⟩
  | cons o os =>
    obtain ⟨f, vs, now', e, hl, hw, h⟩ := FInv.run hcount hhist (o :: os) hos o.time
      (fun o' ho' => by
        rcases List.mem_cons.mp ho' with rfl | ho'
        · exact le_refl _
        · exact (List.pairwise_cons.mp hos).1 o' ho')
      {} [] (FInv.init c False ∅ _ (by omega))
    refine ⟨f, vs, e, h.len, ?_, ?_⟩
    · have := h.sorted
      rw [MsgMap.sorted_iff] at this
      exact this.imp (fun h => ne_of_lt h)
    · intro x hx
      obtain ⟨a, b, d, hd, -⟩ := h.entries x.1 x.2 (find_of_mem h.sorted hx)
      exact ⟨List.length_pos_of_ne_nil a, b, d, hd⟩

/-- **C44: the counters** say how many messages were looked at, suppressed, and missed because the
mutex was taken. -/
theorem c44_counters (c : FilterCfg) (os : List (Offer K)) (f f' : Filter K) (vs : List Verdict)
    (h : f.run c os = .ok (f', vs)) :
    f'.processed = f.processed + vs.countP (fun v => v = .category ∨ v = .sent ∨ v = .redundant) ∧
    f'.suppressed = f.suppressed + vs.countP (fun v => v = .category ∨ v = .redundant) ∧
    f'.lockFail = f.lockFail + vs.countP (fun v => v = .busy) ∧
    vs.countP (fun v => v.display = true) = vs.countP (fun v => v = .sent ∨ v = .off) := by
  induction os generalizing f vs with
  | nil =>
    simp only [Filter.run, Out.ok.injEq, Prod.mk.injEq] at h
    obtain ⟨rfl, rfl⟩ := h
    simp
  | cons o os ih =>
    unfold Filter.run at h
    cases h1 : f.offer c o with
    | ub => rw [h1] at h; simp [Out.bind] at h
    | stuck => rw [h1] at h; simp [Out.bind] at h
    | race => rw [h1] at h; simp [Out.bind] at h
    | ok r =>
      rw [h1] at h
      simp only [Out.bind] at h
      cases h2 : Filter.run c os r.1 with
      | ub => rw [h2] at h; simp at h
      | stuck => rw [h2] at h; simp at h
      | race => rw [h2] at h; simp at h
      | ok r2 =>
        rw [h2] at h
        simp only [Out.ok.injEq, Prod.mk.injEq] at h
        obtain ⟨rfl, rfl⟩ := h
        obtain ⟨i1, i2, i3, i4⟩ := ih r.1 r2.2 h2
        have step : r.1.processed = f.processed +
              (if r.2 = .category ∨ r.2 = .sent ∨ r.2 = .redundant then 1 else 0) ∧
            r.1.suppressed = f.suppressed + (if r.2 = .category ∨ r.2 = .redundant then 1 else 0) ∧
            r.1.lockFail = f.lockFail + (if r.2 = .busy then 1 else 0) := by
          clear ih i1 i2 i3 i4 h2
          unfold Filter.offer at h1
          split at h1
          · cases h1; simp
          split at h1
          · cases h1; simp
          simp only at h1
          split at h1
          · cases h1; simp
          split at h1
          · cases hm : makeRoom c.history (f.map.length + 1) f.map with
            | ok m => rw [hm] at h1; simp only [Out.bind] at h1; cases h1; simp
            | _ => rw [hm] at h1; simp [Out.bind] at h1
          · split at h1
            · cases h1; simp
            · cases h1; simp
        obtain ⟨s1, s2, s3⟩ := step
        simp only [List.countP_cons, decide_eq_true_eq]
        refine ⟨by rw [i1, s1]; omega, by rw [i2, s2]; omega, by rw [i3, s3]; omega, ?_⟩
        rw [i4]
        congr 1
        cases r.2 <;> simp [Verdict.display]

/-- **C44: a history of one message is undefined behaviour.**  With `history` 1, which `setHistory`
accepts, the second message that differs from the first erases the end of the map. -/
theorem c44_history_one (c : FilterCfg) (hh : c.history = 1) (he : c.enabled = true) (a b : Offer K)
    (ha : c.isTypeFiltered a.type = false) (hb : c.isTypeFiltered b.type = false)
    (hab : a.busy = false) (hbb : b.busy = false) (hk : a.key ≠ b.key) :
    Filter.run c [a, b] {} = .ub := by
  simp [Filter.run, Filter.offer, he, ha, hb, hab, hbb, MsgMap.find, makeRoom, hh, Out.bind,
    MsgMap.insert, hk, purgeMessages]

example : ((FilterCfg.setHistory {} 1).history = 1) ∧ (say 0 "a").key ≠ (say 0 "b").key := by
  decide +kernel

/-- **C44: what is purged.**  From two entries or more, the entry purged is never the one with the
smallest key, however long ago it was displayed; among the others it is the oldest. -/
theorem c44_first_kept (x : String × List K) (m : MsgMap K)
    (hs : (x :: m).Pairwise fun a b => a.1 < b.1) (hne : m ≠ []) (ht : ∀ e ∈ m, e.2 ≠ []) :
    ∃ o ∈ m, ∃ m', purgeMessages (x :: m) = .ok (x :: m') ∧ m'.length + 1 = m.length ∧
      m'.Sublist m ∧ o ∉ m' ∧
      ∀ e (he : e ∈ m) (ho : o.2 ≠ []), o.2.getLast ho ≤ e.2.getLast (ht e he) := by
  obtain ⟨o, ho, e1, hmin⟩ := purgeMessages_ok hs hne ht
  refine ⟨o, ho, _, e1, MsgMap.length_erase (v := o.2) ho, MsgMap.erase_sublist _ _, ?_, ?_⟩
  · intro hin
    have hsm : MsgMap.Sorted m := (List.pairwise_cons.mp hs).2
    have := MsgMap.find_erase (k := o.1) (k' := o.1) hsm
    rw [if_pos rfl, MsgMap.find_none] at this
    exact this o hin rfl
  · exact fun e he hne' => hmin hne' e he

/-- **C44: it is not the oldest message that is purged.**  Of "a", displayed at 0 s, and "b",
displayed at 100 s, the filter forgets "b" to make room for "c"; so "b" is displayed again 2 s
later, where one copy in 60 s is allowed. -/
theorem c44_purge_wrong :
    ∃ f, Filter.run smallCfg [say 0 "a", say 100 "b", say 101 "c", say 102 "b"] {} =
        .ok (f, [.sent, .sent, .sent, .sent]) ∧
      f.map.find (say 0 "a").key = some [0] ∧
      verdicts smallCfg [] [say 0 "a", say 100 "b", say 101 "c", say 102 "b"] =
        [.sent, .sent, .sent, .redundant] := by
  refine ⟨_, rfl, ?_, ?_⟩ <;> decide +kernel

/-! ## Settings -/

/-- **C44: the category filter.**  Setting one type changes that type and no other. -/
theorem c44_types (c : FilterCfg) (t u : Fin 5) (on : Bool) :
    (c.setTypeFilter t on).isTypeFiltered u = if u = t then on else c.isTypeFiltered u := by
  have key : ∀ (x : BitVec 32) (i : Fin 5), ((x &&& (1#32 <<< i.val)) != 0) = x.getLsbD i.val := by
    intro x i
    have e : x &&& (1#32 <<< i.val) = if x.getLsbD i.val then 1#32 <<< i.val else 0 := by
      apply BitVec.eq_of_getLsbD_eq
      intro j hj
      by_cases hx : x.getLsbD i.val = true
      · rw [if_pos hx]
        simp only [BitVec.getLsbD_and, BitVec.getLsbD_shiftLeft, BitVec.getLsbD_one]
        by_cases h : j = i.val
        · subst h; simp [hx]
        · have : ¬ (j - i.val = 0 ∧ ¬ j < i.val) := by omega
          by_cases h1 : j < i.val
          · simp [h1]
          · have : j - i.val ≠ 0 := by omega
            simp [this]
      · rw [if_neg hx]
        simp only [BitVec.getLsbD_and, BitVec.getLsbD_shiftLeft, BitVec.getLsbD_one]
        rw [Bool.not_eq_true] at hx
        by_cases h : j = i.val
        · subst h; simp [hx]
        · by_cases h1 : j < i.val
          · simp [h1]
          · have : j - i.val ≠ 0 := by omega
            simp [this]
    rw [e]
    have hne : (1#32 <<< i.val) ≠ 0 := by
      clear e; clear x; revert i; decide
    by_cases hx : x.getLsbD i.val = true
    · rw [if_pos hx, hx]; simpa using hne
    · rw [if_neg hx]
      rw [Bool.not_eq_true] at hx
      rw [hx]; rfl
  unfold FilterCfg.isTypeFiltered FilterCfg.setTypeFilter
  rw [key, key]
  cases on
  · simp only [Bool.false_eq_true, if_false, BitVec.getLsbD_and, BitVec.getLsbD_not,
      BitVec.getLsbD_shiftLeft, BitVec.getLsbD_one]
    by_cases h : u = t
    · subst h; simp
    · have hv : u.val ≠ t.val := fun e => h (Fin.ext e)
      rw [if_neg h]
      by_cases h1 : u.val < t.val
      · have : u.val < 32 := by omega
        simp [h1, this]
      · have : u.val < 32 := by omega
        have h2 : u.val - t.val ≠ 0 := by omega
        simp [this, h2]
  · simp only [if_true, BitVec.getLsbD_or, BitVec.getLsbD_shiftLeft, BitVec.getLsbD_one]
    by_cases h : u = t
    · subst h
      have : u.val < 32 := by omega
      simp [this]
    · have hv : u.val ≠ t.val := fun e => h (Fin.ext e)
      rw [if_neg h]
      by_cases h1 : u.val < t.val
      · simp [h1]
      · have h2 : u.val - t.val ≠ 0 := by omega
        simp [h2]

/-- **C44: the settings stay usable.**  Starting from the defaults, no sequence of calls of the
setters makes the interval, the count or the history less than 1. -/
inductive Configured : FilterCfg → Prop where
  | default : Configured {}
  | setInterval {c} (n) : Configured c → Configured (c.setInterval n)
  | setCount {c} (n) : Configured c → Configured (c.setCount n)
  | setHistory {c} (n) : Configured c → Configured (c.setHistory n)
  | setTypeFilter {c} (t on) : Configured c → Configured (c.setTypeFilter t on)
  | setBlocking {c} (b) : Configured c → Configured (c.setBlocking b)
  | setEnabled {c} (b) : Configured c → Configured (c.setEnabled b)

theorem c44_settings (c : FilterCfg) (h : Configured c) :
    1 ≤ c.interval ∧ 1 ≤ c.count ∧ 1 ≤ c.history := by
  induction h with
  | default => decide
  | setInterval n _ ih => unfold FilterCfg.setInterval; split <;> (simp_all; try omega)
  | setCount n _ ih => unfold FilterCfg.setCount; split <;> (simp_all; try omega)
  | setHistory n _ ih => unfold FilterCfg.setHistory; split <;> (simp_all; try omega)
  | setTypeFilter t on _ ih => cases on <;> simpa [FilterCfg.setTypeFilter] using ih
  | setBlocking b _ ih => simpa [FilterCfg.setBlocking] using ih
  | setEnabled b _ ih => simpa [FilterCfg.setEnabled] using ih

/-! ## What counts as a copy -/

theorem split_at {α : Type _} {x : α} {a b c d : List α} (ha : x ∉ a) (hc : x ∉ c)
    (h : a ++ x :: b = c ++ x :: d) : a = c ∧ b = d := by
  induction a generalizing c with
  | nil =>
    cases c with
    | nil => simpa using h
    | cons y c =>
      simp only [List.nil_append, List.cons_append, List.cons.injEq] at h
      exact absurd (by simp [h.1]) hc
  | cons z a ih =>
    cases c with
    | nil =>
      simp only [List.nil_append, List.cons_append, List.cons.injEq] at h
      exact absurd (by simp [h.1]) ha
    | cons y c =>
      simp only [List.cons_append, List.cons.injEq] at h
      obtain ⟨h1, h2⟩ := ih (fun m => ha (by simp [m])) (fun m => hc (by simp [m])) h.2
      exact ⟨by rw [h.1, h1], h2⟩

theorem bar_notMem_nat (n : Nat) : '|' ∉ n.repr.toList := by
  rw [Nat.toList_repr]
  intro h
  have := Nat.isDigit_of_mem_toDigits (by decide) (by decide) h
  exact absurd this (by decide)

theorem bar_notMem_line (n : Int) : '|' ∉ (toString n).toList := by
  show '|' ∉ n.repr.toList
  cases n with
  | ofNat m => exact bar_notMem_nat m
  | negSucc m =>
    show '|' ∉ (("-" ++ Nat.repr (m + 1)) : String).toList
    rw [String.toList_append]
    intro h
    rcases List.mem_append.mp h with h | h
    · exact absurd h (by decide)
    · exact bar_notMem_nat _ h

/-- **C44: copies.**  If neither the file names nor the subsystems contain a bar, messages taken for
copies of each other come from the same line of the same file and have the same subsystem and
text. -/
theorem c44_key (a b : Offer K) (ha : '|' ∉ a.file.toList) (hb : '|' ∉ b.file.toList)
    (hsa : '|' ∉ a.subsys.toList) (hsb : '|' ∉ b.subsys.toList) (h : a.key = b.key) :
    a.file = b.file ∧ a.line = b.line ∧ a.subsys = b.subsys ∧ a.text = b.text := by
  have h := congrArg String.toList h
  unfold Offer.key at h
  simp only [String.toList_append, List.append_assoc] at h
  have hbar : ("|" : String).toList = ['|'] := rfl
  simp only [hbar, List.singleton_append] at h
  obtain ⟨h1, h⟩ := split_at ha hb h
  obtain ⟨h2, h⟩ := split_at (bar_notMem_line _) (bar_notMem_line _) h
  obtain ⟨h3, h⟩ := split_at hsa hsb h
  have h4 := List.append_cancel_right h
  exact ⟨String.toList_inj.mp h1, Int.repr_injective (String.toList_inj.mp h2),
    String.toList_inj.mp h3, String.toList_inj.mp h4⟩

/-- **C44: messages that are not copies are taken for copies.**  The type is not compared: a fatal
error with the text of an earlier warning is suppressed.  And a bar in the subsystem can stand for
the one between subsystem and text. -/
theorem c44_key_collision :
    (∃ f, Filter.run smallCfg
        [{ say 0 "pump" with type := 2 }, { say 1 "pump" with type := 4 }] {} =
      .ok (f, [.sent, .redundant])) ∧
    ∃ a b : Offer ℚ, a.key = b.key ∧ a.subsys ≠ b.subsys ∧ a.text ≠ b.text := by
  refine ⟨exists_of_verdictsOf (by decide +kernel), { say 0 "c" with subsys := "a|b" }, { say 0 "b|c" with subsys := "a" }, ?_⟩
  decide +kernel

end Gunns.Props
