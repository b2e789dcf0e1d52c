import Verif.Hs.QueueLemmas

/-! # The invariant of the threads of a message queue -/

namespace Gunns.Hs

open Spec

/-- The queue as it is while the mutex is in some state, against the specification. -/
inductive Holds {n : Nat} (q : Queue) (f : Fifo) : Lock n → Prop where
  | free : Ring q f.items → q.overflow = f.lost → Holds q f .free
  | write (m) : Ring q f.items → q.overflow = f.lost → Holds q f (.write m)
  | consumer (c) : Ring q f.items → q.overflow = f.lost → Holds q f (.consumer c)
  | advance (m) (q0 : Queue) (items' : List Msg) : q0.size = q.size → q0.overflow = f.lost →
      Written q0 q f.items items' m → (f.items = [] → q.head = q.tail) → Holds q f (.advance m)

/-- What a single consumer knows. -/
def Knows (q : Queue) (f : Fifo) : Consumer → Prop
  | .idle => True
  | .sawHead p => f.items = [] → p = q.tail
  | .sawTail p => f.items = [] → q.head = p
  | .waiting => f.items ≠ []
  | .holding => f.items ≠ []

/-- The invariant of a queue with one consumer. -/
structure Inv (s : Sys 1) (f : Fifo) : Prop where
  log : replay s.log = some f
  size : s.q.size = f.cap + 1
  skipped : s.q.lockFail = f.skipped
  holds : Holds s.q f s.lock
  knows : Knows s.q f (s.cons 0)
  holding : s.cons 0 = .holding ↔ s.lock = .consumer 0

theorem replay_append {n : Nat} (log : List (Act n)) (a : Act n) :
    replay (log ++ [a]) = (replay log).bind (act · a) := by
  unfold replay
  rw [List.foldl_append]
  rfl

theorem Inv.empty {s : Sys 1} {f : Fifo} (h : Inv s f) (he : f.items = []) :
    s.q.head = s.q.tail := by
  obtain ⟨-, -, -, hh, -, -⟩ := h
  generalize s.lock = l at hh
  cases hh with
  | free r _ => exact r.isEmpty_iff.mpr he
  | write m r _ => exact r.isEmpty_iff.mpr he
  | consumer c r _ => exact r.isEmpty_iff.mpr he
  | advance m q0 i _ _ _ k => exact k he

theorem Holds.congr {n : Nat} {q q' : Queue} {f f' : Fifo} {l : Lock n} (h : Holds q f l)
    (h1 : q'.size = q.size) (h2 : q'.node = q.node) (h3 : q'.next = q.next)
    (h4 : q'.tail = q.tail) (h5 : q'.head = q.head) (h6 : q'.overflow = q.overflow)
    (h7 : f'.items = f.items) (h8 : f'.lost = f.lost) : Holds q' f' l := by
  cases h with
  | free r o => exact .free (h7 ▸ r.congr h1 h2 h3 h4 h5) (by rw [h6, h8]; exact o)
  | write m r o => exact .write m (h7 ▸ r.congr h1 h2 h3 h4 h5) (by rw [h6, h8]; exact o)
  | consumer c r o => exact .consumer c (h7 ▸ r.congr h1 h2 h3 h4 h5) (by rw [h6, h8]; exact o)
  | advance m q0 i hs ho w k =>
    refine .advance m { q0 with blocking := q'.blocking, lockFail := q'.lockFail } i
      (hs.trans h1.symm) (ho.trans h8.symm) ?_ ?_
    · refine ⟨w.ring.congr h1 h2 h3 h4 h5, by rw [h1]; exact w.room, ?_, h1.trans w.size, rfl, rfl,
        ?_⟩
      · rw [h4, h2]; exact w.node
      · rw [h7, h6, h4, h5]; exact w.case
    · rw [h7, h5, h4]; exact k

theorem Knows.congr {q q' : Queue} {f f' : Fifo} {c : Consumer} (h : Knows q f c)
    (h4 : q'.tail = q.tail) (h5 : q'.head = q.head) (h7 : f'.items = f.items) :
    Knows q' f' c := by
  cases c <;> simp only [Knows, h4, h5, h7] at h ⊢ <;> exact h

/-- Events that keep to the protocol: a requested size that does not overflow. -/
def Ev.Fits {n : Nat} : Ev n → Prop
  | .init size _ => size < Queue.intMax
  | _ => True

theorem setCons_zero (s : Sys 1) (x : Consumer) : (s.setCons 0 x).cons 0 = x := by
  simp [Sys.setCons]

/-- One step of one of the threads. -/
theorem Inv.step {s : Sys 1} {f : Fifo} (h : Inv s f) (e : Ev 1) (he : e.Fits) :
    (∃ s' f', s.step e = .ok s' ∧ Inv s' f') ∨
      (s.step e = .race ∧ ∃ size b, e = .init size b) := by
  cases e with
  | enter m =>
    left
    unfold Sys.step
    simp only
    by_cases hl : s.lock = .free
    · rw [if_pos hl]
      obtain ⟨a, b, c, d, k, g⟩ := h
      refine ⟨_, f, rfl, a, b, c, ?_, k, ?_⟩
      · rw [hl] at d
        cases d with
        | free r o => exact .write m r o
      · rw [hl] at g
        simp only [reduceCtorEq, iff_false] at g ⊢
        exact g
    · rw [if_neg hl]
      by_cases hb : s.q.blocking = true
      · rw [if_pos hb]; exact ⟨s, f, rfl, h⟩
      · rw [if_neg hb]
        obtain ⟨a, b, c, d, k, g⟩ := h
        refine ⟨_, { f with skipped := f.skipped + 1 }, rfl, ?_, b, ?_,
          d.congr rfl rfl rfl rfl rfl rfl rfl rfl, k.congr rfl rfl rfl, g⟩
        · rw [replay_append, a]; rfl
        · show s.q.lockFail + 1 = _
          rw [c]
  | write =>
    left
    unfold Sys.step
    simp only
    cases hl : s.lock with
    | free => exact ⟨s, f, rfl, h⟩
    | advance m => exact ⟨s, f, rfl, h⟩
    | consumer c => exact ⟨s, f, rfl, h⟩
    | write m =>
      obtain ⟨a, b, c, d, k, g⟩ := h
      rw [hl] at d g
      cases d with
      | write _ r o =>
        obtain ⟨q', i', e1, w⟩ := r.insertWrite m
        simp only
        rw [e1]
        simp only [Out.bind]
        have hempty : f.items = [] → q'.head = s.q.head ∧ q'.tail = s.q.tail := by
          intro he
          rcases w.case with ⟨-, -, -, hh, ht⟩ | ⟨hf, -, -⟩
          · exact ⟨hh, ht⟩
          · have := r.two
            rw [he] at hf
            simp only [List.length_nil] at hf
            omega
        refine ⟨_, f, rfl, a, w.size.trans b, w.lockFail.trans c,
          .advance m s.q i' w.size.symm o w ?_, ?_, ?_⟩
        · intro he
          rw [(hempty he).1, (hempty he).2]
          exact r.isEmpty_iff.mpr he
        · show Knows q' f (s.cons 0)
          revert k
          cases s.cons 0 <;> simp only [Knows] <;> intro k
          · exact k
          · exact fun he => by rw [(hempty he).2]; exact k he
          · exact fun he => by rw [(hempty he).1]; exact k he
          · exact k
          · exact k
        · simp only [reduceCtorEq, iff_false] at g ⊢
          exact g
  | advance =>
    left
    unfold Sys.step
    simp only
    cases hl : s.lock with
    | free => exact ⟨s, f, rfl, h⟩
    | write m => exact ⟨s, f, rfl, h⟩
    | consumer c => exact ⟨s, f, rfl, h⟩
    | advance m =>
      obtain ⟨a, b, c, d, k, g⟩ := h
      rw [hl] at d g
      cases d with
      | advance _ q0 i' hs ho w _ =>
        obtain ⟨q'', e1, r2, h1, h2, h3, h4⟩ := w.advance
        simp only
        rw [e1]
        simp only [Out.bind]
        have hknows : ∀ f' : Fifo, f'.items ≠ [] → Knows q'' f' (s.cons 0) := by
          intro f' hf
          cases s.cons 0 <;> simp only [Knows] <;> intro he <;> exact absurd he hf
        have h2' := w.ring.two
        rcases w.case with ⟨hc, hi, hov, -, -⟩ | ⟨hc, hi, hov⟩
        · refine ⟨_, { f with items := f.items ++ [m] }, rfl, ?_, h1.trans b, h3.trans c,
            .free (by subst hi; exact r2) (by show q''.overflow = f.lost; rw [h4, hov, ho]),
            hknows _ (by simp), ?_⟩
          · rw [replay_append, a]
            simp only [Option.bind, act]
            rw [if_neg (by omega), if_pos (by omega)]
          · simp only [reduceCtorEq, iff_false] at g ⊢
            exact g
        · refine ⟨_, { f with items := f.items.tail ++ [m], lost := f.lost + 1 }, rfl, ?_,
            h1.trans b, h3.trans c,
            .free (by subst hi; exact r2) (by show q''.overflow = f.lost + 1; rw [h4, hov, ho]),
            hknows _ (by simp), ?_⟩
          · rw [replay_append, a]
            simp only [Option.bind, act]
            rw [if_neg (by omega), if_neg (by omega)]
          · simp only [reduceCtorEq, iff_false] at g ⊢
            exact g
  | readHead c =>
    left
    obtain rfl : c = 0 := Subsingleton.elim _ _
    unfold Sys.step
    simp only
    cases hc : s.cons 0 with
    | idle =>
      refine ⟨_, f, rfl, h.log, h.size, h.skipped, h.holds, ?_, ?_⟩
      · rw [setCons_zero]
        exact fun he => h.empty he
      · rw [setCons_zero]
        have := h.holding
        rw [hc] at this
        simpa [Sys.setCons] using this
    | _ => exact ⟨s, f, rfl, h⟩
  | readTail c =>
    left
    obtain rfl : c = 0 := Subsingleton.elim _ _
    unfold Sys.step
    simp only
    cases hc : s.cons 0 with
    | idle =>
      refine ⟨_, f, rfl, h.log, h.size, h.skipped, h.holds, ?_, ?_⟩
      · rw [setCons_zero]
        exact fun he => h.empty he
      · rw [setCons_zero]
        have := h.holding
        rw [hc] at this
        simpa [Sys.setCons] using this
    | _ => exact ⟨s, f, rfl, h⟩
  | compare c =>
    left
    obtain rfl : c = 0 := Subsingleton.elim _ _
    have hg := h.holding
    have hk := h.knows
    unfold Sys.step
    simp only
    cases hc : s.cons 0 with
    | sawHead p =>
      rw [hc] at hg hk
      simp only [Knows] at hk
      simp only
      by_cases hp : p = s.q.tail
      · rw [if_pos hp]
        refine ⟨_, f, rfl, ?_, h.size, h.skipped, h.holds, ?_, ?_⟩
        · rw [replay_append, h.log]; rfl
        · show Knows _ _ ((s.setCons 0 .idle).cons 0)
          rw [setCons_zero]; trivial
        · show (s.setCons 0 .idle).cons 0 = _ ↔ s.lock = _
          rw [setCons_zero]
          simpa [Sys.setCons] using hg
      · rw [if_neg hp]
        refine ⟨_, f, rfl, h.log, h.size, h.skipped, h.holds, ?_, ?_⟩
        · rw [setCons_zero]
          exact fun he => hp (hk he)
        · rw [setCons_zero]
          simpa [Sys.setCons] using hg
    | sawTail p =>
      rw [hc] at hg hk
      simp only [Knows] at hk
      simp only
      by_cases hp : s.q.head = p
      · rw [if_pos hp]
        refine ⟨_, f, rfl, ?_, h.size, h.skipped, h.holds, ?_, ?_⟩
        · rw [replay_append, h.log]; rfl
        · show Knows _ _ ((s.setCons 0 .idle).cons 0)
          rw [setCons_zero]; trivial
        · show (s.setCons 0 .idle).cons 0 = _ ↔ s.lock = _
          rw [setCons_zero]
          simpa [Sys.setCons] using hg
      · rw [if_neg hp]
        refine ⟨_, f, rfl, h.log, h.size, h.skipped, h.holds, ?_, ?_⟩
        · rw [setCons_zero]
          exact fun he => hp (hk he)
        · rw [setCons_zero]
          simpa [Sys.setCons] using hg
    | _ => exact ⟨s, f, rfl, h⟩
  | lock c =>
    left
    obtain rfl : c = 0 := Subsingleton.elim _ _
    unfold Sys.step
    simp only
    by_cases hc : s.cons 0 = .waiting ∧ s.lock = .free
    · rw [if_pos hc]
      obtain ⟨a, b, c', d, k, g⟩ := h
      rw [hc.2] at d
      rw [hc.1] at k
      cases d with
      | free r o =>
        refine ⟨_, f, rfl, a, b, c', .consumer 0 r o, ?_, ?_⟩
        · show Knows _ _ ((s.setCons 0 .holding).cons 0)
          rw [setCons_zero]
          exact k
        · show (s.setCons 0 .holding).cons 0 = _ ↔ _
          rw [setCons_zero]
          simp
    · rw [if_neg hc]; exact ⟨s, f, rfl, h⟩
  | take c =>
    left
    obtain rfl : c = 0 := Subsingleton.elim _ _
    unfold Sys.step
    simp only
    by_cases hc : s.cons 0 = .holding
    · rw [if_pos hc]
      obtain ⟨a, b, c', d, k, g⟩ := h
      rw [g.mp hc] at d
      rw [hc] at k
      cases d with
      | consumer _ r o =>
        cases hi : f.items with
        | nil => exact absurd hi k
        | cons m ms =>
          rw [hi] at r
          obtain ⟨q', e1, r', h1, h2, h3, h4⟩ := r.take
          rw [e1]
          simp only [Out.bind]
          refine ⟨_, { f with items := ms }, rfl, ?_, h1.trans b, h3.trans c',
            .free r' (h4.trans o), ?_, ?_⟩
          · rw [replay_append, a]
            simp only [Option.bind, act, hi]
            simp
          · show Knows _ _ ((s.setCons 0 .idle).cons 0)
            rw [setCons_zero]; trivial
          · show (s.setCons 0 .idle).cons 0 = _ ↔ _
            rw [setCons_zero]
            simp
    · rw [if_neg hc]; exact ⟨s, f, rfl, h⟩
  | setBlocking b =>
    left
    exact ⟨_, f, rfl, h.log, h.size, h.skipped, h.holds.congr rfl rfl rfl rfl rfl rfl rfl rfl,
      h.knows.congr rfl rfl rfl, h.holding⟩
  | init size b =>
    unfold Sys.step
    simp only
    by_cases hc : s.lock = .free ∧ ∀ c, s.cons c = .idle
    · left
      rw [if_pos hc]
      obtain ⟨a, hb, c', d, k, g⟩ := h
      rw [hc.1] at d
      cases d with
      | free r o =>
        obtain ⟨q', e1, r', h1, h2, h3, h4⟩ := init_ring r size he b
        rw [e1]
        simp only [Out.bind]
        refine ⟨_, { f with
                     cap := (max size 1).toNat
                     items := f.items.drop (f.items.length - (max size 1).toNat)
                     lost := f.lost + (f.items.length - (max size 1).toNat) }, rfl, ?_, h1,
          h3.trans c', ?_, ?_, ?_⟩
        · rw [replay_append, a]; rfl
        · show Holds q' _ s.lock
          rw [hc.1]
          exact .free r' (by rw [h4, o])
        · show Knows _ _ (s.cons 0)
          rw [hc.2 0]; trivial
        · exact g
    · right
      rw [if_neg hc]
      exact ⟨rfl, size, b, rfl⟩

/-- Any interleaving. -/
theorem Inv.run {s : Sys 1} {f : Fifo} (h : Inv s f) (es : List (Ev 1)) (he : ∀ e ∈ es, e.Fits) :
    (∃ s' f', s.run es = .ok s' ∧ Inv s' f') ∨
      (s.run es = .race ∧ ∃ size b, Ev.init size b ∈ es) := by
  induction es generalizing s f with
  | nil => exact Or.inl ⟨s, f, rfl, h⟩
  | cons e es ih =>
    rcases h.step e (he e (by simp)) with ⟨s1, f1, e1, h1⟩ | ⟨e1, size, b, hi⟩
    · have hr : s.run (e :: es) = s1.run es := by
        show (s.step e).bind _ = _
        rw [e1]; rfl
      rw [hr]
      rcases ih h1 (fun e' h' => he e' (by simp [h'])) with h2 | ⟨h2, size, b, hi⟩
      · exact Or.inl h2
      · exact Or.inr ⟨h2, size, b, by simp [hi]⟩
    · right
      refine ⟨?_, size, b, by simp [hi]⟩
      show (s.step e).bind _ = _
      rw [e1]; rfl

/-- The first `initialize`. -/
theorem inv_init (size : Int) (hs : size < Queue.intMax) (b : Bool) :
    ∃ s f, ({} : Sys 1).step (.init size b) = .ok s ∧ Inv s f := by
  obtain ⟨q', e1, r', h1, h2, h3, h4⟩ := init_default size hs b ctorDefault rfl
  refine ⟨{ q := q', log := [.resized size] },
    { cap := (max size 1).toNat, items := [], lost := 0, skipped := 0 }, ?_, ?_⟩
  · unfold Sys.step
    simp only
    rw [if_pos (by simp)]
    show (ctorDefault.init size b).bind _ = _
    rw [e1]
    rfl
  · refine ⟨?_, h1, h3, .free r' h4, trivial, by simp⟩
    simp [replay, act]

/-! ## Consequences of the specification -/

/-- What was sent and what was received, along a record. -/
theorem replay_counts {n : Nat} (log : List (Act n)) (f : Fifo) (h : replay log = some f) :
    (got log ++ f.items).Sublist (sent log) ∧
      (sent log).length = (got log).length + f.items.length + f.lost ∧ skips log = f.skipped := by
  induction log using List.reverseRecOn generalizing f with
  | nil =>
    simp only [replay, List.foldl_nil, Option.some.injEq] at h
    subst h
    simp [got, sent, skips]
  | append_singleton log a ih =>
    rw [replay_append] at h
    cases hr : replay log with
    | none => rw [hr] at h; simp at h
    | some f0 =>
      rw [hr] at h
      obtain ⟨i1, i2, i3⟩ := ih f0 hr
      simp only [Option.bind] at h
      cases a with
      | sent m =>
        have hg : got (log ++ [.sent m]) = got log := by simp [got]
        have hs : sent (log ++ [.sent m]) = sent log ++ [m] := by simp [sent]
        have hk : skips (log ++ [.sent m]) = skips log := by simp [skips]
        rw [hg, hs, hk]
        simp only [act] at h
        by_cases h0 : f0.cap = 0
        · rw [if_pos h0] at h; cases h
        rw [if_neg h0] at h
        by_cases hc : f0.items.length < f0.cap
        · rw [if_pos hc, Option.some.injEq] at h
          subst h
          refine ⟨?_, ?_, i3⟩
          · rw [← List.append_assoc]
            exact i1.append (List.Sublist.refl _)
          · simp only [List.length_append, List.length_cons, List.length_nil]
            omega
        · rw [if_neg hc, Option.some.injEq] at h
          subst h
          cases hi : f0.items with
          | nil => rw [hi] at hc; simp at hc; omega
          | cons x xs =>
            rw [hi] at i1 i2
            refine ⟨?_, ?_, i3⟩
            · rw [← List.append_assoc]
              refine List.Sublist.append ?_ (List.Sublist.refl _)
              refine List.Sublist.trans ?_ i1
              exact (List.Sublist.refl _).append (List.sublist_cons_self _ _)
            · simp only [List.length_append, List.length_cons, List.length_nil, List.tail_cons] at i2 ⊢
              omega
      | skipped m =>
        have hg : got (log ++ [.skipped m]) = got log := by simp [got]
        have hs : sent (log ++ [.skipped m]) = sent log := by simp [sent]
        have hk : skips (log ++ [.skipped m]) = skips log + 1 := by simp [skips]
        rw [hg, hs, hk]
        simp only [act, Option.some.injEq] at h
        subst h
        exact ⟨i1, i2, by rw [i3]⟩
      | got c m =>
        have hg : got (log ++ [.got c m]) = got log ++ [m] := by simp [got]
        have hs : sent (log ++ [.got c m]) = sent log := by simp [sent]
        have hk : skips (log ++ [.got c m]) = skips log := by simp [skips]
        rw [hg, hs, hk]
        simp only [act] at h
        split at h
        · rename_i hh
          rw [Option.some.injEq] at h
          subst h
          cases hi : f0.items with
          | nil => rw [hi] at hh; simp at hh
          | cons x xs =>
            rw [hi] at i1 i2 hh
            simp only [List.head?_cons, Option.some.injEq] at hh
            subst hh
            refine ⟨by simpa using i1, ?_, i3⟩
            simp only [List.length_append, List.length_cons, List.length_nil, List.tail_cons] at i2 ⊢
            omega
        · cases h
      | none c =>
        have hg : got (log ++ [.none c]) = got log := by simp [got]
        have hs : sent (log ++ [.none c]) = sent log := by simp [sent]
        have hk : skips (log ++ [.none c]) = skips log := by simp [skips]
        rw [hg, hs, hk]
        simp only [act, Option.some.injEq] at h
        subst h
        exact ⟨i1, i2, i3⟩
      | resized size =>
        have hg : got (log ++ [.resized size]) = got log := by simp [got]
        have hs : sent (log ++ [.resized size]) = sent log := by simp [sent]
        have hk : skips (log ++ [.resized size]) = skips log := by simp [skips]
        rw [hg, hs, hk]
        simp only [act, Option.some.injEq] at h
        subst h
        refine ⟨?_, ?_, i3⟩
        · refine List.Sublist.trans ?_ i1
          exact (List.Sublist.refl _).append (List.drop_sublist _ _)
        · simp only [List.length_drop]
          omega

end Gunns.Hs
