import Verif.Hs.FilterSpec
import Mathlib.Tactic.Linarith
import Mathlib.Data.Finset.Card
import Mathlib.Data.String.Basic

/-! # Lemmas about the message filter -/

namespace Gunns.Hs

set_option linter.unusedSectionVars false

variable {K : Type _} [Field K] [LinearOrder K] [IsStrictOrderedRing K]

namespace MsgMap

/-- The entries are in increasing order of the key. -/
def Sorted (m : MsgMap K) : Prop := m.Pairwise fun a b => a.1 < b.1

theorem find_none {k : String} {m : MsgMap K} : m.find k = none ↔ ∀ e ∈ m, e.1 ≠ k := by
  induction m with
  | nil => simp [find]
  | cons e m ih =>
    unfold find
    by_cases h : e.1 = k
    · simp [h]
    · simp [h, ih]

theorem find_some {k : String} {m : MsgMap K} {v : List K} (h : m.find k = some v) :
    (k, v) ∈ m := by
  induction m with
  | nil => simp [find] at h
  | cons e m ih =>
    unfold find at h
    by_cases he : e.1 = k
    · rw [if_pos he, Option.some.injEq] at h
      simp [← he, ← h]
    · rw [if_neg he] at h
      simp [ih h]

theorem mem_insert {k : String} {v : List K} {m : MsgMap K} {e : String × List K} :
    e ∈ m.insert k v ↔ e = (k, v) ∨ e ∈ m := by
  induction m with
  | nil => simp [insert]
  | cons a m ih =>
    unfold insert
    by_cases h : k < a.1
    · simp [h]
    · simp only [h, if_false, List.mem_cons, ih]
      tauto

theorem length_insert (k : String) (v : List K) (m : MsgMap K) :
    (m.insert k v).length = m.length + 1 := by
  induction m with
  | nil => simp [insert]
  | cons a m ih =>
    unfold insert
    by_cases h : k < a.1
    · simp [h]
    · simp [h, ih]

theorem sorted_insert {k : String} {v : List K} {m : MsgMap K} (hm : m.Sorted)
    (hk : m.find k = none) : (m.insert k v).Sorted := by
  induction m with
  | nil => simp [insert, Sorted]
  | cons a m ih =>
    unfold Sorted at hm
    rw [List.pairwise_cons] at hm
    have hk' := find_none.mp hk
    unfold insert
    by_cases h : k < a.1
    · rw [if_pos h]
      unfold Sorted
      rw [List.pairwise_cons, List.pairwise_cons]
      refine ⟨?_, hm⟩
      intro e he
      rcases List.mem_cons.mp he with rfl | he
      · exact h
      · exact lt_trans h (hm.1 e he)
    · rw [if_neg h]
      unfold Sorted
      rw [List.pairwise_cons]
      refine ⟨?_, ih hm.2 (find_none.mpr fun e he => hk' e (by simp [he]))⟩
      intro e he
      rcases mem_insert.mp he with rfl | he
      · have := hk' a (by simp)
        exact lt_of_le_of_ne (not_lt.mp h) this
      · exact hm.1 e he

theorem find_insert {k k' : String} {v : List K} {m : MsgMap K} (hk : m.find k = none) :
    (m.insert k v).find k' = if k' = k then some v else m.find k' := by
  induction m with
  | nil =>
    by_cases h : k' = k
    · simp [insert, find, h]
    · simp [insert, find, h, Ne.symm h]
  | cons a m ih =>
    have hk' := find_none.mp hk
    have ih := ih (find_none.mpr fun e he => hk' e (by simp [he]))
    have hak : a.1 ≠ k := hk' a (by simp)
    unfold insert
    by_cases h : k < a.1
    · rw [if_pos h]
      by_cases e : k' = k
      · simp [find, e]
      · rw [if_neg e]
        conv_lhs => unfold find
        rw [if_neg (by exact Ne.symm e)]
    · rw [if_neg h]
      unfold find
      by_cases e : a.1 = k'
      · rw [if_pos e, if_pos e]
        rw [if_neg (by rw [← e]; exact hak)]
      · rw [if_neg e, if_neg e, ih]

theorem map_fst_set (k : String) (v : List K) (m : MsgMap K) :
    (m.set k v).map Prod.fst = m.map Prod.fst := by
  induction m with
  | nil => rfl
  | cons a m ih =>
    unfold set
    by_cases h : a.1 = k
    · simp [h]
    · simp [h, ih]

theorem length_set (k : String) (v : List K) (m : MsgMap K) : (m.set k v).length = m.length := by
  have := congrArg List.length (map_fst_set k v m)
  simpa using this

theorem sorted_iff (m : MsgMap K) : m.Sorted ↔ (m.map Prod.fst).Pairwise (· < ·) := by
  unfold Sorted
  rw [List.pairwise_map]

theorem sorted_set {k : String} {v : List K} {m : MsgMap K} (hm : m.Sorted) :
    (m.set k v).Sorted := by
  rw [sorted_iff, map_fst_set, ← sorted_iff]
  exact hm

theorem mem_set {k : String} {v : List K} {m : MsgMap K} {e : String × List K}
    (h : e ∈ m.set k v) : e = (k, v) ∨ e ∈ m := by
  induction m with
  | nil => simp [set] at h
  | cons a m ih =>
    unfold set at h
    by_cases ha : a.1 = k
    · rw [if_pos ha] at h
      rcases List.mem_cons.mp h with h | h
      · exact Or.inl h
      · exact Or.inr (by simp [h])
    · rw [if_neg ha] at h
      rcases List.mem_cons.mp h with h | h
      · exact Or.inr (by simp [h])
      · rcases ih h with h | h
        · exact Or.inl h
        · exact Or.inr (by simp [h])

theorem find_set {k k' : String} {v w : List K} {m : MsgMap K} (hk : m.find k = some w) :
    (m.set k v).find k' = if k' = k then some v else m.find k' := by
  induction m with
  | nil => simp [find] at hk
  | cons a m ih =>
    unfold find at hk
    unfold set
    by_cases ha : a.1 = k
    · rw [if_pos ha]
      unfold find
      by_cases e : k' = k
      · simp [e]
      · rw [if_neg (by exact Ne.symm e), if_neg e, if_neg (by rw [ha]; exact Ne.symm e)]
    · rw [if_neg ha] at hk ⊢
      have ih := ih hk
      unfold find
      by_cases e : a.1 = k'
      · rw [if_pos e, if_pos e, if_neg (by rw [← e]; exact ha)]
      · rw [if_neg e, if_neg e, ih]

theorem erase_sublist (k : String) (m : MsgMap K) : (m.erase k).Sublist m := by
  induction m with
  | nil => simp [erase]
  | cons a m ih =>
    unfold erase
    by_cases h : a.1 = k
    · rw [if_pos h]; exact List.sublist_cons_self _ _
    · rw [if_neg h]; exact ih.cons_cons _

theorem sorted_erase {k : String} {m : MsgMap K} (hm : m.Sorted) : (m.erase k).Sorted :=
  List.Pairwise.sublist (erase_sublist k m) hm

theorem length_erase {k : String} {m : MsgMap K} {v : List K} (hk : (k, v) ∈ m) :
    (m.erase k).length + 1 = m.length := by
  induction m with
  | nil => simp at hk
  | cons a m ih =>
    unfold erase
    by_cases h : a.1 = k
    · rw [if_pos h]; rfl
    · rw [if_neg h]
      have : (k, v) ∈ m := by
        rcases List.mem_cons.mp hk with e | e
        · exact absurd (by rw [← e]) h
        · exact e
      simp [ih this]

theorem find_erase {k k' : String} {m : MsgMap K} (hm : m.Sorted) :
    (m.erase k).find k' = if k' = k then none else m.find k' := by
  induction m with
  | nil => simp [erase, find]
  | cons a m ih =>
    unfold Sorted at hm
    rw [List.pairwise_cons] at hm
    have ih := ih hm.2
    unfold erase
    by_cases h : a.1 = k
    · rw [if_pos h]
      by_cases e : k' = k
      · rw [if_pos e, find_none]
        intro b hb hbk
        have := hm.1 b hb
        rw [h, hbk, e] at this
        exact lt_irrefl _ this
      · rw [if_neg e]
        conv_rhs => unfold find
        rw [if_neg (by rw [h]; exact Ne.symm e)]
    · rw [if_neg h]
      conv_lhs => unfold find
      conv_rhs => unfold find
      by_cases e : a.1 = k'
      · rw [if_pos e, if_pos e, if_neg (by rw [← e]; exact h)]
      · rw [if_neg e, if_neg e, ih]

end MsgMap

/-! ## Making room -/

theorem back_ok {v : List K} (h : v ≠ []) : back v = .ok (v.getLast h) := by
  unfold back
  rw [List.getLast?_eq_some_getLast h]

/-- The loop finds an entry that was displayed last no later than any of the others. -/
theorem scanOldest_ok (o : String × List K) (es : List (String × List K)) (ho : o.2 ≠ [])
    (hes : ∀ e ∈ es, e.2 ≠ []) :
    ∃ r, scanOldest o es = .ok r ∧ (r = o ∨ r ∈ es) ∧
      ∀ (hr : r.2 ≠ []), r.2.getLast hr ≤ o.2.getLast ho ∧
        ∀ e (he : e ∈ es), r.2.getLast hr ≤ e.2.getLast (hes e he) := by
  induction es generalizing o with
  | nil => exact ⟨o, rfl, Or.inl rfl, fun _ => ⟨le_refl _, by simp⟩⟩
  | cons a es ih =>
    have ha : a.2 ≠ [] := hes a (by simp)
    have hes' : ∀ e ∈ es, e.2 ≠ [] := fun e he => hes e (by simp [he])
    unfold scanOldest
    rw [back_ok ha, back_ok ho]
    simp only [Out.bind]
    by_cases hlt : a.2.getLast ha < o.2.getLast ho
    · rw [if_pos hlt]
      obtain ⟨r, e1, h1, h2⟩ := ih a ha hes'
      refine ⟨r, e1, Or.inr (by rcases h1 with h | h <;> simp [h]), ?_⟩
      intro hr
      obtain ⟨h3, h4⟩ := h2 hr
      refine ⟨h3.trans hlt.le, ?_⟩
      intro e he
      rcases List.mem_cons.mp he with rfl | he'
      · exact h3
      · exact h4 e he'
    · rw [if_neg hlt]
      obtain ⟨r, e1, h1, h2⟩ := ih o ho hes'
      refine ⟨r, e1, by rcases h1 with h | h <;> simp [h], ?_⟩
      intro hr
      obtain ⟨h3, h4⟩ := h2 hr
      refine ⟨h3, ?_⟩
      intro e he
      rcases List.mem_cons.mp he with rfl | he'
      · exact h3.trans (not_lt.mp hlt)
      · exact h4 e he'

/-- Purging a map of two entries or more takes out one of the entries after the first: one that was
displayed last no later than any of these. -/
theorem purgeMessages_ok {x : String × List K} {m : MsgMap K} (hm : MsgMap.Sorted (x :: m))
    (hne : m ≠ []) (ht : ∀ e ∈ m, e.2 ≠ []) :
    ∃ o, o ∈ m ∧ purgeMessages (x :: m) = .ok (x :: MsgMap.erase o.1 m) ∧
      ∀ (ho : o.2 ≠ []) e (he : e ∈ m), o.2.getLast ho ≤ e.2.getLast (ht e he) := by
  cases m with
  | nil => exact absurd rfl hne
  | cons y rest =>
    have hy : y.2 ≠ [] := ht y (by simp)
    obtain ⟨r, e1, h1, h2⟩ := scanOldest_ok y (y :: rest) hy ht
    have hr : r ∈ y :: rest := by
      rcases h1 with h | h
      · rw [h]; simp
      · exact h
    refine ⟨r, hr, ?_, ?_⟩
    · unfold purgeMessages
      simp only
      rw [e1]
      simp only [Out.bind]
      unfold MsgMap.Sorted at hm
      rw [List.pairwise_cons] at hm
      have hlt := hm.1 r hr
      conv_lhs => unfold MsgMap.erase
      rw [if_neg (ne_of_lt hlt)]
    · intro ho e he
      exact (h2 ho).2 e he

/-- Making room in a map that is within its limit, where the limit is two or more. -/
theorem makeRoom_ok {history : Int} {m : MsgMap K} (hh : 2 ≤ history) (hl : (m.length : Int) ≤ history)
    (hm : m.Sorted) (ht : ∀ e ∈ m, e.2 ≠ []) :
    ∃ m', makeRoom history (m.length + 1) m = .ok m' ∧ (m'.length : Int) < history ∧ m'.Sorted ∧
      m'.Sublist m ∧ (∀ k v, m'.find k = some v → m.find k = some v) ∧
      ((m.length : Int) < history → m' = m) := by
  by_cases h : (m.length : Int) < history
  · refine ⟨m, ?_, h, hm, List.Sublist.refl _, fun _ _ h => h, fun _ => rfl⟩
    unfold makeRoom
    rw [if_neg (by omega)]
  · have hl2 : 2 ≤ m.length := by omega
    cases m with
    | nil => simp at hl2
    | cons x m =>
      have hne : m ≠ [] := by
        rintro rfl
        simp at hl2
      obtain ⟨o, ho, e1, -⟩ := purgeMessages_ok hm hne (fun e he => ht e (by simp [he]))
      have hlen := MsgMap.length_erase (k := o.1) (v := o.2) (m := m) ho
      have hxo : x.1 ≠ o.1 := by
        unfold MsgMap.Sorted at hm
        rw [List.pairwise_cons] at hm
        exact ne_of_lt (hm.1 o ho)
      have her : x :: MsgMap.erase o.1 m = MsgMap.erase o.1 (x :: m) := by
        conv_rhs => unfold MsgMap.erase
        rw [if_neg hxo]
      refine ⟨x :: MsgMap.erase o.1 m, ?_, ?_, ?_, ?_, ?_, fun hc => absurd hc h⟩
      · unfold makeRoom
        rw [if_pos (by omega), e1]
        simp only [Out.bind, List.length_cons]
        unfold makeRoom
        rw [if_neg (by simp only [List.length_cons] at hl ⊢; omega)]
      · simp only [List.length_cons] at hl ⊢
        omega
      · rw [her]; exact MsgMap.sorted_erase hm
      · rw [her]; exact MsgMap.erase_sublist _ _
      · intro k v hk
        rw [her, MsgMap.find_erase hm] at hk
        split at hk
        · cases hk
        · exact hk

theorem makeRoom_noop {history : Int} {m : MsgMap K} (h : (m.length : Int) < history) :
    makeRoom history (m.length + 1) m = .ok m := by
  unfold makeRoom
  rw [if_neg (by omega)]

end Gunns.Hs
