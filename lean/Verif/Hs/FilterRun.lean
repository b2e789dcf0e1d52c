import Verif.Hs.FilterLemmas
import Mathlib.Data.List.Pairwise
import Mathlib.Data.List.TakeWhile

/-! # The invariant of the message filter -/

namespace Gunns.Hs

open Spec

set_option linter.unusedSectionVars false

variable {K : Type _} [Field K] [LinearOrder K] [IsStrictOrderedRing K]

/-- The times at which a message was displayed. -/
def timesOf (sends : List (K × String)) (k : String) : List K :=
  (sends.filter fun s => decide (s.2 = k)).map Prod.fst

theorem recent_eq (sends : List (K × String)) (k : String) (start : K) :
    recent sends k start = ((timesOf sends k).filter fun t => decide (start ≤ t)).length := by
  unfold recent timesOf
  rw [List.filter_map, List.length_map, List.filter_filter]
  congr 1
  apply List.filter_congr
  intro s _
  simp only [Function.comp, Bool.decide_and]
  rw [Bool.and_comm]

theorem timesOf_append (sends : List (K × String)) (t : K) (k k' : String) :
    timesOf (sends ++ [(t, k)]) k' = if k' = k then timesOf sends k' ++ [t] else timesOf sends k' := by
  unfold timesOf
  rw [List.filter_append, List.map_append]
  by_cases h : k' = k
  · simp [h]
  · simp [h, Ne.symm h]

theorem timesOf_pairwise {sends : List (K × String)} (h : sends.Pairwise fun a b => a.1 ≤ b.1)
    (k : String) : (timesOf sends k).Pairwise (· ≤ ·) := by
  unfold timesOf
  rw [List.pairwise_map]
  exact h.sublist List.filter_sublist

theorem dropWhile_eq_filter {v : List K} (h : v.Pairwise (· ≤ ·)) (s : K) :
    purgeTimes v s = v.filter fun t => decide (s ≤ t) := by
  unfold purgeTimes
  induction v with
  | nil => rfl
  | cons a v ih =>
    rw [List.pairwise_cons] at h
    by_cases ha : a < s
    · rw [List.dropWhile_cons_of_pos (by simpa using ha), ih h.2,
        List.filter_cons_of_neg (by simpa using ha)]
    · rw [List.dropWhile_cons_of_neg (by simpa using ha)]
      symm
      rw [List.filter_eq_self]
      intro b hb
      rw [decide_eq_true_eq]
      rcases List.mem_cons.mp hb with rfl | hb
      · exact not_lt.mp ha
      · exact (not_lt.mp ha).trans (h.1 b hb)

theorem find_of_mem {m : MsgMap K} (hm : m.Sorted) {k : String} {v : List K} (h : (k, v) ∈ m) :
    m.find k = some v := by
  induction m with
  | nil => simp at h
  | cons a m ih =>
    unfold MsgMap.Sorted at hm
    rw [List.pairwise_cons] at hm
    unfold MsgMap.find
    rcases List.mem_cons.mp h with e | e
    · rw [← e]; simp
    · have := hm.1 _ e
      rw [if_neg (ne_of_lt this)]
      exact ih hm.2 e

/-- The invariant.  `exact` says that no entry was ever purged. -/
structure FInv (c : FilterCfg) (exact : Prop) (S : Finset String) (now : K) (f : Filter K)
    (sends : List (K × String)) : Prop where
  sorted : f.map.Sorted
  len : (f.map.length : Int) ≤ c.history
  entries : ∀ k v, f.map.find k = some v → v ≠ [] ∧ (v.length : Int) ≤ c.count ∧
    ∃ d, timesOf sends k = d ++ v ∧ (exact → ∀ t ∈ d, t < now - (c.interval : K))
  unseen : exact → ∀ k, f.map.find k = none → timesOf sends k = []
  mono : sends.Pairwise fun a b => a.1 ≤ b.1
  past : ∀ s ∈ sends, s.1 ≤ now
  keys : exact → ∀ e ∈ f.map, e.1 ∈ S

theorem FInv.nonempty {c : FilterCfg} {exact : Prop} {S : Finset String} {now : K} {f : Filter K}
    {sends : List (K × String)} (h : FInv c exact S now f sends) : ∀ e ∈ f.map, e.2 ≠ [] :=
  fun e he => (h.entries e.1 e.2 (find_of_mem h.sorted he)).1

theorem FInv.later {c : FilterCfg} {exact : Prop} {S : Finset String} {now t : K} {f f' : Filter K}
    {sends : List (K × String)} (h : FInv c exact S now f sends) (ht : now ≤ t)
    (hf : f'.map = f.map) : FInv c exact S t f' sends := by
  refine ⟨hf ▸ h.sorted, hf ▸ h.len, ?_, hf ▸ h.unseen, h.mono, fun s hs => (h.past s hs).trans ht,
    hf ▸ h.keys⟩
  rw [hf]
  intro k v hk
  obtain ⟨a, b, d, e, g⟩ := h.entries k v hk
  exact ⟨a, b, d, e, fun he t' ht' => by have := g he t' ht'; linarith⟩

theorem FInv.append {sends : List (K × String)} {now t : K} {k : String}
    (mono : sends.Pairwise fun a b => a.1 ≤ b.1) (past : ∀ s ∈ sends, s.1 ≤ now) (ht : now ≤ t) :
    (sends ++ [(t, k)]).Pairwise (fun a b => a.1 ≤ b.1) ∧ ∀ s ∈ sends ++ [(t, k)], s.1 ≤ t := by
  constructor
  · rw [List.pairwise_append]
    refine ⟨mono, by simp, ?_⟩
    intro a ha b hb
    simp only [List.mem_singleton] at hb
    subst hb
    exact (past a ha).trans ht
  · intro s hs
    rcases List.mem_append.mp hs with h | h
    · exact (past s h).trans ht
    · simp only [List.mem_singleton] at h
      subst h
      exact le_refl _

/-- A new key fits in a map whose keys all come from a small set. -/
theorem length_lt_card {m : MsgMap K} (hm : m.Sorted) {S : Finset String} (hS : ∀ e ∈ m, e.1 ∈ S)
    {k : String} (hk : k ∈ S) (hn : m.find k = none) : m.length < S.card := by
  have hnd : (m.map Prod.fst).Nodup := by
    rw [MsgMap.sorted_iff] at hm
    exact hm.imp (fun h => ne_of_lt h)
  have hnd' : (k :: m.map Prod.fst).Nodup := by
    rw [List.nodup_cons]
    refine ⟨?_, hnd⟩
    intro h
    obtain ⟨e, he, hek⟩ := List.mem_map.mp h
    exact MsgMap.find_none.mp hn e he hek
  have hsub : (k :: m.map Prod.fst).toFinset ⊆ S := by
    intro x hx
    rw [List.mem_toFinset] at hx
    rcases List.mem_cons.mp hx with rfl | hx
    · exact hk
    · obtain ⟨e, he, rfl⟩ := List.mem_map.mp hx
      exact hS e he
  have := Finset.card_le_card hsub
  rw [List.toFinset_card_of_nodup hnd'] at this
  simp at this
  omega

/-- One message. -/
theorem FInv.offer {c : FilterCfg} {exact : Prop} {S : Finset String} {now : K} {f : Filter K}
    {sends : List (K × String)} (h : FInv c exact S now f sends) (o : Offer K) (ht : now ≤ o.time)
    (hcount : 1 ≤ c.count)
    (hroom : (exact ∧ o.key ∈ S ∧ (S.card : Int) ≤ c.history) ∨ (¬ exact ∧ 2 ≤ c.history)) :
    ∃ f' v, f.offer c o = .ok (f', v) ∧ FInv c exact S o.time f' (after sends o v) ∧
      (v = verdict c sends o ∨ (¬ exact ∧ v = .sent ∧ verdict c sends o = .redundant)) := by
  unfold Filter.offer
  by_cases h1 : c.enabled = true
  swap
  · rw [Bool.not_eq_true] at h1
    rw [if_pos (by simp [h1])]
    refine ⟨f, .off, rfl, h.later ht rfl, Or.inl ?_⟩
    simp [verdict, h1]
  rw [if_neg (by simp [h1])]
  by_cases h2 : c.blocking = false ∧ o.busy = true
  · rw [if_pos (by simp [h2.1, h2.2])]
    refine ⟨_, .busy, rfl, h.later ht rfl, Or.inl ?_⟩
    simp [verdict, h1, h2.1, h2.2]
  rw [if_neg (by simpa using h2)]
  simp only
  by_cases h3 : c.isTypeFiltered o.type = true
  · rw [if_pos h3]
    refine ⟨_, .category, rfl, h.later ht rfl, Or.inl ?_⟩
    simp [verdict, h1, h2, h3]
  rw [if_neg h3]
  have hverdict : verdict c sends o =
      if (recent sends o.key (o.time - (c.interval : K)) : Int) < c.count then .sent
      else .redundant := by
    unfold verdict
    rw [if_neg (by simp [h1]), if_neg h2, if_neg h3]
  cases hk : f.map.find o.key with
  | none =>
    simp only
    have happ := FInv.append (k := o.key) h.mono h.past ht
    have hmk : ∃ m', makeRoom c.history (f.map.length + 1) f.map = .ok m' ∧
        (m'.length : Int) < c.history ∧ m'.Sorted ∧ m'.Sublist f.map ∧
        (∀ k v, m'.find k = some v → f.map.find k = some v) ∧ (exact → m' = f.map) := by
      rcases hroom with ⟨he, hS, hc⟩ | ⟨he, hh⟩
      · have := length_lt_card h.sorted (h.keys he) hS hk
        have hlt : (f.map.length : Int) < c.history := by omega
        exact ⟨f.map, makeRoom_noop hlt, hlt, h.sorted, List.Sublist.refl _, fun _ _ h => h,
          fun _ => rfl⟩
      · obtain ⟨m', a, b, d, e, g, -⟩ := makeRoom_ok hh h.len h.sorted h.nonempty
        exact ⟨m', a, b, d, e, g, fun hx => absurd hx he⟩
    obtain ⟨m', e1, hl, hs, hsub, hfind, heq⟩ := hmk
    have hn' : m'.find o.key = none := by
      cases hx : m'.find o.key with
      | none => rfl
      | some v => rw [hfind _ _ hx] at hk; cases hk
    rw [e1]
    simp only [Out.bind]
    refine ⟨_, .sent, rfl, ⟨MsgMap.sorted_insert hs hn', ?_, ?_, ?_, ?_, ?_, ?_⟩, ?_⟩
    · simp only [MsgMap.length_insert]
      omega
    · intro k v hf
      simp only [MsgMap.find_insert hn'] at hf
      simp only [after, if_true, timesOf_append]
      by_cases e : k = o.key
      · rw [if_pos e, Option.some.injEq] at hf
        subst hf
        refine ⟨by simp, by simpa using hcount, timesOf sends k, by rw [if_pos e], ?_⟩
        intro he t ht'
        rw [e, h.unseen he _ hk] at ht'
        simp at ht'
      · rw [if_neg e] at hf ⊢
        obtain ⟨a, b, d, e', g⟩ := h.entries k v (hfind _ _ hf)
        exact ⟨a, b, d, e', fun he t ht' => by have := g he t ht'; linarith⟩
    · intro he k hf
      simp only [MsgMap.find_insert hn'] at hf
      simp only [after, if_true, timesOf_append]
      split at hf
      · cases hf
      · rename_i e
        rw [if_neg e]
        exact h.unseen he k (by rw [← heq he]; exact hf)
    · simpa only [after, if_true] using happ.1
    · simpa only [after, if_true] using happ.2
    · intro he e hm
      simp only [MsgMap.mem_insert] at hm
      rcases hm with rfl | hm
      · rcases hroom with ⟨-, hS, -⟩ | ⟨hx, -⟩
        · exact hS
        · exact absurd he hx
      · exact h.keys he e (hsub.subset hm)
    · rw [hverdict]
      by_cases hr : (recent sends o.key (o.time - (c.interval : K)) : Int) < c.count
      · rw [if_pos hr]; exact Or.inl rfl
      · rw [if_neg hr]
        right
        refine ⟨?_, rfl, rfl⟩
        intro he
        apply hr
        rw [recent_eq, h.unseen he _ hk]
        simp
        omega
  | some v =>
    simp only
    obtain ⟨hv1, hv2, d, hd, hdt⟩ := h.entries _ _ hk
    have happ := FInv.append (k := o.key) h.mono h.past ht
    have hpw : (d ++ v).Pairwise (· ≤ ·) := hd ▸ timesOf_pairwise h.mono o.key
    have hpv : v.Pairwise (· ≤ ·) := (List.pairwise_append.mp hpw).2.1
    obtain ⟨d2, hd2⟩ : ∃ d2, v = d2 ++ purgeTimes v (o.time - (c.interval : K)) ∧
        ∀ t ∈ d2, t < o.time - (c.interval : K) := by
      refine ⟨v.takeWhile (· < o.time - (c.interval : K)), (List.takeWhile_append_dropWhile).symm, ?_⟩
      intro t ht'
      simpa using List.mem_takeWhile_imp ht'
    have hrec : recent sends o.key (o.time - (c.interval : K)) =
        (d.filter fun t => decide (o.time - (c.interval : K) ≤ t)).length +
          (purgeTimes v (o.time - (c.interval : K))).length := by
      rw [recent_eq, hd, List.filter_append, List.length_append, dropWhile_eq_filter hpv]
    have hd0 : exact → (d.filter fun t => decide (o.time - (c.interval : K) ≤ t)) = [] := by
      intro he
      rw [List.filter_eq_nil_iff]
      intro t ht'
      have := hdt he t ht'
      simp only [decide_eq_true_eq, not_le]
      linarith
    generalize hpt : purgeTimes v (o.time - (c.interval : K)) = w at *
    by_cases hlt : (w.length : Int) < c.count
    · rw [if_pos hlt]
      refine ⟨_, .sent, rfl, ⟨MsgMap.sorted_set h.sorted, ?_, ?_, ?_, ?_, ?_, ?_⟩, ?_⟩
      · simp only [MsgMap.length_set]
        exact h.len
      · intro k u hf
        simp only [MsgMap.find_set hk] at hf
        simp only [after, if_true, timesOf_append]
        by_cases e : k = o.key
        · rw [if_pos e, Option.some.injEq] at hf
          subst hf
          refine ⟨by simp, by simp; omega, d ++ d2, ?_, ?_⟩
          · rw [if_pos e, e, hd]
            conv_lhs => rw [hd2.1]
            simp
          · intro he t ht'
            rcases List.mem_append.mp ht' with ht' | ht'
            · have := hdt he t ht'
              linarith
            · exact hd2.2 t ht'
        · rw [if_neg e] at hf ⊢
          obtain ⟨a, b, d, e', g⟩ := h.entries k u hf
          exact ⟨a, b, d, e', fun he t ht' => by have := g he t ht'; linarith⟩
      · intro he k hf
        simp only [MsgMap.find_set hk] at hf
        simp only [after, if_true, timesOf_append]
        split at hf
        · cases hf
        · rename_i e
          rw [if_neg e]
          exact h.unseen he k hf
      · simpa only [after, if_true] using happ.1
      · simpa only [after, if_true] using happ.2
      · intro he e hm
        rcases MsgMap.mem_set hm with rfl | hm
        · exact h.keys he (o.key, v) (MsgMap.find_some hk)
        · exact h.keys he e hm
      · rw [hverdict, hrec]
        by_cases hr : (((d.filter fun t => decide (o.time - (c.interval : K) ≤ t)).length + w.length : Nat)
            : Int) < c.count
        · rw [if_pos hr]; exact Or.inl rfl
        · rw [if_neg hr]
          right
          refine ⟨?_, rfl, rfl⟩
          intro he
          apply hr
          rw [hd0 he]
          simpa using hlt
    · rw [if_neg hlt]
      refine ⟨_, .redundant, rfl, ⟨MsgMap.sorted_set h.sorted, ?_, ?_, ?_, ?_, ?_, ?_⟩, ?_⟩
      · simp only [MsgMap.length_set]
        exact h.len
      · intro k u hf
        simp only [MsgMap.find_set hk] at hf
        simp only [after]
        rw [if_neg (by decide)]
        by_cases e : k = o.key
        · rw [if_pos e, Option.some.injEq] at hf
          subst hf
          refine ⟨?_, ?_, d ++ d2, ?_, ?_⟩
          · intro hw
            rw [hw] at hlt
            simp at hlt
            omega
          · have := congrArg List.length hd2.1
            rw [List.length_append] at this
            omega
          · rw [e, hd]
            conv_lhs => rw [hd2.1]
            simp
          · intro he t ht'
            rcases List.mem_append.mp ht' with ht' | ht'
            · have := hdt he t ht'
              linarith
            · exact hd2.2 t ht'
        · rw [if_neg e] at hf
          obtain ⟨a, b, d, e', g⟩ := h.entries k u hf
          exact ⟨a, b, d, e', fun he t ht' => by have := g he t ht'; linarith⟩
      · intro he k hf
        simp only [MsgMap.find_set hk] at hf
        split at hf
        · cases hf
        · exact h.unseen he k hf
      · simpa [after] using h.mono
      · intro s hs
        exact (h.past s (by simpa [after] using hs)).trans ht
      · intro he e hm
        rcases MsgMap.mem_set hm with rfl | hm
        · exact h.keys he (o.key, v) (MsgMap.find_some hk)
        · exact h.keys he e hm
      · rw [hverdict, hrec, if_neg (by push_cast; omega)]
        exact Or.inl rfl

/-- A sequence of messages, with purging. -/
theorem FInv.run {c : FilterCfg} (hcount : 1 ≤ c.count) (hhist : 2 ≤ c.history)
    (os : List (Offer K)) (hos : os.Pairwise fun a b => a.time ≤ b.time) (now : K)
    (hnow : ∀ o ∈ os, now ≤ o.time) (f : Filter K) (sends : List (K × String))
    (h : FInv c False ∅ now f sends) :
    ∃ f' vs now', f.run c os = .ok (f', vs) ∧ vs.length = os.length ∧
      NoneWrongly c sends (os.zip vs) ∧
      FInv c False ∅ now' f' (displays sends (os.zip vs)) := by
  induction os generalizing now f sends with
  | nil => exact ⟨f, [], now, rfl, rfl, trivial, h⟩
  | cons o os ih =>
    rw [List.pairwise_cons] at hos
    obtain ⟨f1, v, e1, h1, hv⟩ := h.offer o (hnow o (by simp)) hcount (Or.inr ⟨fun x => x, hhist⟩)
    obtain ⟨f2, vs, now', e2, hl, hw, h2⟩ := ih hos.2 o.time (fun o' ho' => hos.1 o' ho') f1 _ h1
    refine ⟨f2, v :: vs, now', ?_, by simp [hl], ⟨?_, hw⟩, h2⟩
    · unfold Filter.run
      rw [e1]
      simp only [Out.bind]
      rw [e2]
    · rcases hv with hv | ⟨-, hv⟩
      · exact Or.inl hv
      · exact Or.inr hv

/-- A sequence of messages, of which there are no more than the map can hold. -/
theorem FInv.run_exact {c : FilterCfg} (hcount : 1 ≤ c.count) (S : Finset String)
    (hS : (S.card : Int) ≤ c.history)
    (os : List (Offer K)) (hos : os.Pairwise fun a b => a.time ≤ b.time) (now : K)
    (hnow : ∀ o ∈ os, now ≤ o.time) (hkeys : ∀ o ∈ os, o.key ∈ S) (f : Filter K)
    (sends : List (K × String)) (h : FInv c True S now f sends) :
    ∃ f', f.run c os = .ok (f', verdicts c sends os) := by
  induction os generalizing now f sends with
  | nil => exact ⟨f, rfl⟩
  | cons o os ih =>
    rw [List.pairwise_cons] at hos
    obtain ⟨f1, v, e1, h1, hv⟩ := h.offer o (hnow o (by simp)) hcount
      (Or.inl ⟨trivial, hkeys o (by simp), hS⟩)
    have hv : v = verdict c sends o := by
      rcases hv with hv | ⟨hx, -⟩
      · exact hv
      · exact absurd trivial hx
    subst hv
    obtain ⟨f2, e2⟩ := ih hos.2 o.time (fun o' ho' => hos.1 o' ho')
      (fun o' ho' => hkeys o' (by simp [ho'])) f1 _ h1
    refine ⟨f2, ?_⟩
    unfold Filter.run
    rw [e1]
    simp only [Out.bind]
    rw [e2]
    rfl

theorem FInv.init (c : FilterCfg) (exact : Prop) (S : Finset String) (now : K)
    (hh : 0 ≤ c.history) : FInv c exact S now {} [] := by
  refine ⟨?_, by simpa using hh, ?_, ?_, by simp, by simp, by simp⟩
  · simp [MsgMap.Sorted]
  · intro k v h; simp [MsgMap.find] at h
  · intro _ k _; simp [timesOf]

/-! ## The rate limit -/

/-- The displays of a message within a window of `interval` seconds. -/
def inWindow (sends : List (K × String)) (k : String) (a b : K) : Nat :=
  (sends.filter fun s => decide (s.2 = k ∧ a ≤ s.1 ∧ s.1 ≤ b)).length

theorem inWindow_le_recent (sends : List (K × String)) (k : String) (a b s : K) (h : s ≤ a) :
    inWindow sends k a b ≤ recent sends k s := by
  unfold inWindow recent
  apply List.Sublist.length_le
  apply List.monotone_filter_right
  intro x hx
  simp only [decide_eq_true_eq] at hx ⊢
  exact ⟨hx.1, h.trans hx.2.1⟩

/-- The specification keeps to the rate. -/
theorem rate_limit {c : FilterCfg} (os : List (Offer K)) (k : String) (a : K)
    (sends : List (K × String))
    (h : (inWindow sends k a (a + (c.interval : K)) : Int) ≤ c.count) :
    (inWindow (displays sends (os.zip (verdicts c sends os))) k a (a + (c.interval : K)) : Int)
      ≤ c.count := by
  induction os generalizing sends with
  | nil => exact h
  | cons o os ih =>
    show (inWindow (displays (after sends o (verdict c sends o))
      (os.zip (verdicts c (after sends o (verdict c sends o)) os))) k a _ : Int) ≤ _
    apply ih
    unfold after
    split
    · rename_i hv
      unfold verdict at hv
      split at hv
      · cases hv
      split at hv
      · cases hv
      split at hv
      · cases hv
      split at hv
      · rename_i hr
        by_cases hin : o.key = k ∧ a ≤ o.time ∧ o.time ≤ a + (c.interval : K)
        · have e : inWindow (sends ++ [(o.time, o.key)]) k a (a + (c.interval : K)) =
              inWindow sends k a (a + (c.interval : K)) + 1 := by
            unfold inWindow
            rw [List.filter_append, List.length_append]
            simp [hin.1, hin.2.1, hin.2.2]
          have := inWindow_le_recent sends k a (a + (c.interval : K)) (o.time - (c.interval : K))
            (by linarith [hin.2.2])
          rw [hin.1] at hr
          rw [e]
          push_cast
          omega
        · have e : inWindow (sends ++ [(o.time, o.key)]) k a (a + (c.interval : K)) =
              inWindow sends k a (a + (c.interval : K)) := by
            unfold inWindow
            rw [List.filter_append, List.length_append]
            have : decide (o.key = k ∧ a ≤ o.time ∧ o.time ≤ a + (c.interval : K)) = false :=
              decide_eq_false hin
            rw [List.filter_cons_of_neg (by simp only [this]; decide)]
            simp
          rw [e]
          exact h
      · cases hv
    · exact h

end Gunns.Hs
