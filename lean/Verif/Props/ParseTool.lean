import Verif.Math.ParseTool
import Mathlib.Order.Lattice
import Mathlib.Tactic.Common

/-!
# C110: a parsed text file holds exactly the meaningful part of each of its lines

The small specification: `IsStrip` says what it is to take the whitespace off both ends of a string,
`List.intercalate` puts lines (or fields) together, and `FirstAt` says where a marker first occurs.
-/

set_option linter.unusedSectionVars false

namespace Gunns.Props

open Gunns.Parse

variable {α : Type _} [DecidableEq α]

/-- `r` is `s` without the whitespace at its two ends. -/
def IsStrip (space : α → Bool) (s r : List α) : Prop :=
  ∃ a b, s = a ++ r ++ b ∧ (∀ x ∈ a, space x = true) ∧ (∀ x ∈ b, space x = true) ∧
    (∀ x t, r = x :: t → space x = false) ∧ (∀ x t, r = t ++ [x] → space x = false)

/-- `m` occurs in `t` right after `p`, and nowhere earlier. -/
def FirstAt (m t p : List α) : Prop :=
  (∃ q, t = p ++ m ++ q) ∧ ∀ p' q', t = p' ++ m ++ q' → p.length ≤ p'.length

private theorem c110_dropWhile_all (p : α → Bool) : ∀ l : List α, (∀ x ∈ l, p x = true) →
    ∀ t, (l ++ t).dropWhile p = t.dropWhile p
  | [], _, _ => rfl
  | x :: l, h, t => by
    rw [List.cons_append, List.dropWhile_cons_of_pos (h x (by simp))]
    exact c110_dropWhile_all p l (fun y hy => h y (by simp [hy])) t

private theorem c110_dropWhile_head (p : α → Bool) : ∀ l : List α, ∀ x t,
    l.dropWhile p = x :: t → p x = false
  | [], x, t, h => by simp at h
  | y :: l, x, t, h => by
    by_cases hy : p y = true
    · rw [List.dropWhile_cons_of_pos hy] at h
      exact c110_dropWhile_head p l x t h
    · rw [List.dropWhile_cons_of_neg hy] at h
      cases h
      simpa using hy

private theorem c110_takeWhile_all (p : α → Bool) : ∀ l : List α, ∀ x ∈ l.takeWhile p, p x = true
  | [], x, h => by simp at h
  | y :: l, x, h => by
    by_cases hy : p y = true
    · rw [List.takeWhile_cons_of_pos hy] at h
      rcases List.mem_cons.1 h with h | h
      · rw [h]; exact hy
      · exact c110_takeWhile_all p l x h
    · rw [List.takeWhile_cons_of_neg hy] at h
      simp at h

private theorem c110_strip_spec (space : α → Bool) (s : List α) :
    IsStrip space s (strip space s) := by
  have h1 := List.takeWhile_append_dropWhile (p := space) (l := s)
  have h2 := List.takeWhile_append_dropWhile (p := space) (l := (s.dropWhile space).reverse)
  have h3 : s.dropWhile space = strip space s ++
      ((s.dropWhile space).reverse.takeWhile space).reverse := by
    have := congrArg List.reverse h2
    rw [List.reverse_append, List.reverse_reverse] at this
    exact this.symm
  refine ⟨s.takeWhile space, ((s.dropWhile space).reverse.takeWhile space).reverse, ?_,
    c110_takeWhile_all space s, ?_, ?_, ?_⟩
  · rw [List.append_assoc, ← h3, h1]
  · intro x hx
    exact c110_takeWhile_all space _ x (List.mem_reverse.1 hx)
  · intro x t h
    rw [h] at h3
    exact c110_dropWhile_head space s x _ h3
  · intro x t h
    have h' : ((s.dropWhile space).reverse.dropWhile space) = x :: t.reverse := by
      have := congrArg List.reverse h
      simpa [strip] using this
    exact c110_dropWhile_head space _ x _ h'

private theorem c110_strip_unique (space : α → Bool) (s r : List α) (h : IsStrip space s r) :
    strip space s = r := by
  obtain ⟨a, b, e, ha, hb, hf, hl⟩ := h
  unfold strip
  rw [e, List.append_assoc, c110_dropWhile_all space a ha]
  rcases r with _ | ⟨x, r⟩
  · have : b.dropWhile space = [] := by
      have := c110_dropWhile_all space b hb []
      simpa using this
    simp [this]
  · have hx := hf x r rfl
    rw [List.cons_append, List.dropWhile_cons_of_neg (by simp [hx]), ← List.cons_append,
      List.reverse_append, c110_dropWhile_all space b.reverse
        (fun y hy => hb y (List.mem_reverse.1 hy))]
    rcases hr : (x :: r).reverse with _ | ⟨y, t⟩
    · simp at hr
    · have e2 : x :: r = t.reverse ++ [y] := by
        have := congrArg List.reverse hr
        simpa using this
      have hy := hl y t.reverse e2
      rw [List.dropWhile_cons_of_neg (by simp [hy]), e2]
      simp

private theorem c110_findIdx (p : α → Bool) : ∀ (s : List α) (i : Nat), s.findIdx? p = some i →
    ∃ a x b, s = a ++ x :: b ∧ a.length = i ∧ p x = true
  | [], i, h => by simp at h
  | y :: s, i, h => by
    rw [List.findIdx?_cons] at h
    by_cases hy : p y = true
    · rw [if_pos hy] at h
      cases h
      exact ⟨[], y, s, rfl, rfl, hy⟩
    · rw [if_neg hy] at h
      obtain ⟨k, hk, e⟩ := Option.map_eq_some_iff.1 h
      obtain ⟨a, x, b, e1, e2, e3⟩ := c110_findIdx p s k hk
      exact ⟨y :: a, x, b, by rw [e1]; rfl, by simp [e2, ← e], e3⟩

private theorem c110_remove (rm : List α) : ∀ (n : Nat) (s : List α), s.length ≤ n →
    removeLoop rm n s = s.filter (fun x => decide (x ∉ rm))
  | 0, s, h => by
    have : s = [] := List.eq_nil_of_length_eq_zero (by omega)
    rw [this]; rfl
  | n + 1, s, h => by
    unfold removeLoop
    rcases hs : s.findIdx? (fun x => decide (x ∈ rm)) with _ | i
    · rw [List.findIdx?_eq_none_iff] at hs
      symm
      rw [List.filter_eq_self]
      intro x hx
      simpa using hs x hx
    · obtain ⟨a, x, b, e, hl, hx⟩ := c110_findIdx _ s i hs
      have e2 : s.eraseIdx i = a ++ b := by
        rw [e, ← hl, List.eraseIdx_append_of_length_le (le_refl _)]
        simp
      show removeLoop rm n (s.eraseIdx i) = _
      rw [e2, c110_remove rm n (a ++ b) (by rw [e] at h; simp at h ⊢; omega), e]
      have hx' : x ∈ rm := by simpa using hx
      simp [List.filter_append, hx']

/-- The characters of `rm` are gone wherever they stood, and the whitespace at the two ends of what
is left; nothing else has changed. -/
theorem c110_trim (space : α → Bool) (rm : List α) (s r : List α) :
    (trim space (some rm) s = r ↔ IsStrip space (s.filter (fun x => decide (x ∉ rm))) r) ∧
      (trim space none s = r ↔ IsStrip space s r) := by
  constructor
  · show strip space (removeLoop rm s.length s) = r ↔ _
    rw [c110_remove rm s.length s (le_refl _)]
    exact ⟨fun h => h ▸ c110_strip_spec _ _, fun h => c110_strip_unique _ _ _ h⟩
  · exact ⟨fun h => h ▸ c110_strip_spec _ _, fun h => c110_strip_unique _ _ _ h⟩

private theorem c110_self (space : α → Bool) (s r : List α) (h : IsStrip space s r) :
    trim space none r = r := by
  obtain ⟨a, b, e, ha, hb, hf, hl⟩ := h
  exact ((c110_trim space [] r r).2).2 ⟨[], [], by simp, by simp, by simp, hf, hl⟩

/-- Trimming twice is trimming once. -/
theorem c110_trim_twice (space : α → Bool) (rm : Option (List α)) (s : List α) :
    trim space rm (trim space rm s) = trim space rm s ∧
      trim space none (trim space rm s) = trim space rm s := by
  rcases rm with _ | rm
  · have h := c110_self space s _ (c110_strip_spec space s)
    exact ⟨h, h⟩
  · have h := ((c110_trim space rm s _).1).1 rfl
    have h0 := c110_self space _ _ h
    refine ⟨?_, h0⟩
    have hm : ∀ x ∈ trim space (some rm) s, x ∉ rm := by
      intro x hx
      obtain ⟨a, b, e, -⟩ := h
      have : x ∈ s.filter (fun x => decide (x ∉ rm)) := by rw [e]; simp [hx]
      simpa using (List.mem_filter.1 this).2
    rw [(c110_trim space rm _ _).1, List.filter_eq_self.2 (by simpa using hm)]
    exact ((c110_trim space [] _ _).2).1 h0

private theorem c110_join (c : α) (p q : List α) (t : List (List α)) :
    [c].intercalate (p :: q :: t) = p ++ c :: [c].intercalate (q :: t) := by
  simp [List.intercalate, List.intersperse]

private theorem c110_join_one (c : α) (p : List α) : [c].intercalate [p] = p := by
  simp [List.intercalate, List.intersperse]

private theorem c110_join_length (c : α) : ∀ t : List (List α),
    t.length ≤ ([c].intercalate t).length + 1
  | [] => by simp
  | [p] => by simp
  | p :: q :: t => by
    have := c110_join_length c (q :: t)
    rw [c110_join]
    simp only [List.length_cons, List.length_append] at this ⊢
    omega

private theorem c110_find_none (c : α) (l : List α) (h : c ∉ l) :
    l.findIdx? (fun x => decide (x = c)) = none := by
  rw [List.findIdx?_eq_none_iff]
  intro x hx
  simp only [decide_eq_false_iff_not]
  rintro rfl
  exact h hx

private theorem c110_find_some (c : α) : ∀ (l t : List α), c ∉ l →
    (l ++ c :: t).findIdx? (fun x => decide (x = c)) = some l.length
  | [], t, _ => by simp [List.findIdx?_cons]
  | x :: l, t, h => by
    have h1 : x ≠ c := fun e => h (by simp [e])
    have h2 : c ∉ l := fun e => h (by simp [e])
    rw [List.cons_append, List.findIdx?_cons, if_neg (by simpa using h1), c110_find_some c l t h2]
    simp

private theorem c110_split_loop (space : α → Bool) (c : α) (s : List α) :
    ∀ (t : List (List α)) (p : List α) (n i : Nat) (v : List (List α)), t.length < n →
      s.drop i = [c].intercalate (p :: t) → (∀ l ∈ p :: t, c ∉ l) →
      splitLoop space c s n i v = some (v ++ (p :: t).map (trim space none))
  | [], p, n + 1, i, v, _, hd, hc => by
    rw [c110_join_one] at hd
    have hl : p.length ≤ s.length := by rw [← hd]; simp
    have hf : find c s i = none := by
      unfold find
      rw [hd, c110_find_none c p (hc p (by simp))]
      rfl
    unfold splitLoop
    rw [hf, hd]
    show some (v ++ [trim space none (p.take s.length)]) = _
    rw [List.take_of_length_le hl]
    rfl
  | q :: t, p, n + 1, i, v, hn, hd, hc => by
    rw [c110_join] at hd
    have hf : find c s i = some (p.length + i) := by
      unfold find
      rw [hd, c110_find_some c p _ (hc p (by simp))]
      rfl
    have hd2 : s.drop (p.length + i + 1) = [c].intercalate (q :: t) := by
      have : s.drop (p.length + i + 1) = (s.drop i).drop (p.length + 1) := by
        rw [List.drop_drop]; congr 1; omega
      rw [this, hd]
      simp [List.drop_append]
    unfold splitLoop
    rw [hf]
    show splitLoop space c s n (p.length + i + 1)
      (v ++ [trim space none ((s.drop i).take (p.length + i - i))]) = _
    rw [c110_split_loop space c s t q n _ _ (by simpa using hn) hd2
      (fun l hl => hc l (by simp only [List.mem_cons] at hl ⊢; exact Or.inr hl)), hd]
    simp

/-- Splitting undoes joining: a line put together from any fields with the separator between them
comes back as those fields, each trimmed, in their order, the empty ones too. -/
theorem c110_split (space : α → Bool) (c : α) (fields : List (List α)) (hne : fields ≠ [])
    (hc : ∀ l ∈ fields, c ∉ l) :
    splitLine space c ([c].intercalate fields) = some (fields.map (trim space none)) := by
  rcases fields with _ | ⟨p, t⟩
  · exact absurd rfl hne
  · have := c110_join_length c (p :: t)
    unfold splitLine
    rw [c110_split_loop space c ([c].intercalate (p :: t)) t p
      (([c].intercalate (p :: t)).length + 1) 0 []
      (by rw [List.length_cons] at this; omega) rfl hc]
    rfl

private theorem c110_exists (c : α) : ∀ s : List α, ∃ p t, s = [c].intercalate (p :: t) ∧
    (∀ l ∈ p :: t, c ∉ l) ∧ t.length = s.count c
  | [] => ⟨[], [], by simp, by simp, by simp⟩
  | x :: s => by
    obtain ⟨p, t, e, h, hl⟩ := c110_exists c s
    by_cases hx : x = c
    · refine ⟨[], p :: t, ?_, ?_, ?_⟩
      · rw [c110_join, e, hx]; rfl
      · intro l hm
        rcases List.mem_cons.1 hm with rfl | hm
        · simp
        · exact h l hm
      · simp [hl, hx]
    · refine ⟨x :: p, t, ?_, ?_, ?_⟩
      · rcases t with _ | ⟨q, t⟩
        · rw [c110_join_one] at e ⊢; rw [e]
        · rw [c110_join] at e ⊢; rw [e]; rfl
      · intro l hm
        rcases List.mem_cons.1 hm with rfl | hm
        · intro hcx
          rcases List.mem_cons.1 hcx with hcx | hcx
          · exact hx hcx.symm
          · exact h p (by simp) hcx
        · exact h l (by simp [hm])
      · rw [hl, List.count_cons_of_ne hx]

/-- Every line splits, into one field more than it has separators. -/
theorem c110_split_total (space : α → Bool) (c : α) (s : List α) :
    ∃ v, splitLine space c s = some v ∧ v.length = s.count c + 1 ∧
      ∀ f ∈ v, c ∉ f ∧ trim space none f = f := by
  obtain ⟨p, t, e, h, hl⟩ := c110_exists c s
  refine ⟨(p :: t).map (trim space none), ?_, by simp [hl], ?_⟩
  · rw [e]; exact c110_split space c (p :: t) (by simp) h
  · intro f hf
    obtain ⟨l, hm, rfl⟩ := List.mem_map.1 hf
    refine ⟨?_, (c110_trim_twice space none l).1⟩
    obtain ⟨a, b, e', -⟩ := ((c110_trim space [] l _).2).1 rfl
    intro hc
    exact h l hm (by rw [e']; simp [hc])

private theorem c110_sub_some (m : List α) : ∀ (t : List α) (j : Nat), findSub m t = some j →
    FirstAt m t (t.take j) ∧ j ≤ t.length
  | [], j, h => by
    unfold findSub at h
    by_cases hm : m.isPrefixOf [] = true
    · rw [if_pos hm] at h
      cases h
      obtain ⟨q, hq⟩ := List.isPrefixOf_iff_prefix.1 hm
      exact ⟨⟨⟨q, by simpa using hq.symm⟩, by simp⟩, by simp⟩
    · rw [if_neg hm] at h; cases h
  | x :: t, j, h => by
    unfold findSub at h
    by_cases hm : m.isPrefixOf (x :: t) = true
    · rw [if_pos hm] at h
      cases h
      obtain ⟨q, hq⟩ := List.isPrefixOf_iff_prefix.1 hm
      exact ⟨⟨⟨q, by simpa using hq.symm⟩, by simp⟩, by simp⟩
    · rw [if_neg hm] at h
      obtain ⟨k, hk, rfl⟩ := Option.map_eq_some_iff.1 h
      obtain ⟨⟨⟨q, hq⟩, hfirst⟩, hle⟩ := c110_sub_some m t k hk
      refine ⟨⟨⟨q, by simpa using hq⟩, ?_⟩, by simpa using hle⟩
      intro p' q' e
      rcases p' with _ | ⟨y, p'⟩
      · exact absurd (List.isPrefixOf_iff_prefix.2 ⟨q', by simpa using e.symm⟩) hm
      · simp only [List.cons_append, List.cons.injEq] at e
        have := hfirst p' q' e.2
        simpa using this

private theorem c110_sub_none (m : List α) : ∀ t : List α, findSub m t = none →
    ∀ p q, t ≠ p ++ m ++ q
  | [], h, p, q, e => by
    unfold findSub at h
    have e' := e.symm
    simp only [List.append_eq_nil_iff] at e'
    rw [if_pos (by rw [e'.1.2]; rfl)] at h
    cases h
  | x :: t, h, p, q, e => by
    unfold findSub at h
    by_cases hm : m.isPrefixOf (x :: t) = true
    · rw [if_pos hm] at h; cases h
    · rw [if_neg hm, Option.map_eq_none_iff] at h
      rcases p with _ | ⟨y, p⟩
      · exact hm (List.isPrefixOf_iff_prefix.2 ⟨q, by simpa using e.symm⟩)
      · simp only [List.cons_append, List.cons.injEq] at e
        exact c110_sub_none m t h p q e.2

private theorem c110_sub_first (m t p : List α) (h : FirstAt m t p) :
    findSub m t = some p.length := by
  obtain ⟨⟨q, e⟩, hf⟩ := h
  rcases hs : findSub m t with _ | j
  · exact absurd e (c110_sub_none m t hs p q)
  · obtain ⟨⟨⟨q', e'⟩, hf'⟩, hle⟩ := c110_sub_some m t j hs
    have h1 := hf _ _ e'
    have h2 := hf' _ _ e
    rw [List.length_take, min_eq_left hle] at h1 h2
    rw [le_antisymm h1 h2]

private theorem c110_clean_eq (space : α → Bool) (rm cm : Option (List α)) (raw cut : List α)
    (h : (trim space rm raw).take (match cm with
      | none => (trim space rm raw).length
      | some m => (findSub m (trim space rm raw)).getD (trim space rm raw).length) = cut) :
    cleanLine space rm cm raw = if cut = [] then none else some (trim space none cut) := by
  subst h
  rfl

/-- What is kept of a line: all of it (trimmed) when there is no comment marker in it, what stands
before the first marker (trimmed) when there is one, and nothing when that is empty. -/
theorem c110_line (space : α → Bool) (rm : Option (List α)) (m raw : List α) :
    (cleanLine space rm none raw = if trim space rm raw = [] then none else some (trim space rm raw)) ∧
    ((∀ p q, trim space rm raw ≠ p ++ m ++ q) → cleanLine space rm (some m) raw =
      if trim space rm raw = [] then none else some (trim space rm raw)) ∧
    ∀ p, FirstAt m (trim space rm raw) p → cleanLine space rm (some m) raw =
      if p = [] then none else some (trim space none p) := by
  have h2 := (c110_trim_twice space rm raw).2
  refine ⟨?_, fun h => ?_, fun p hp => ?_⟩
  · rw [c110_clean_eq space rm none raw (trim space rm raw) (by simp), h2]
  · rw [c110_clean_eq space rm (some m) raw (trim space rm raw) ?_, h2]
    rcases hs : findSub m (trim space rm raw) with _ | j
    · simp [hs]
    · obtain ⟨⟨⟨q, e⟩, -⟩, -⟩ := c110_sub_some m _ j hs
      exact absurd e (h _ _)
  · rw [c110_clean_eq space rm (some m) raw p ?_]
    show (trim space rm raw).take ((findSub m (trim space rm raw)).getD _) = p
    rw [c110_sub_first m _ p hp]
    obtain ⟨⟨q, e⟩, -⟩ := hp
    show (trim space rm raw).take p.length = p
    rw [e]
    simp

private theorem c110_trim_infix (space : α → Bool) (s : List α) :
    ∃ a b, s = a ++ trim space none s ++ b := by
  obtain ⟨a, b, e, -⟩ := ((c110_trim space [] s _).2).1 rfl
  exact ⟨a, b, e⟩

/-- A stored line is never empty, is trimmed, has no unwanted character and no comment marker. -/
theorem c110_stored (space : α → Bool) (rm m raw r : List α) (hm : m ≠ [])
    (h : cleanLine space (some rm) (some m) raw = some r) :
    r ≠ [] ∧ trim space none r = r ∧ (∀ x ∈ r, x ∉ rm ∧ x ∈ raw) ∧ ∀ p q, r ≠ p ++ m ++ q := by
  have ht := ((c110_trim space rm raw _).1).1 rfl
  have hmem : ∀ x ∈ trim space (some rm) raw, x ∉ rm ∧ x ∈ raw := by
    intro x hx
    obtain ⟨a, b, e, -⟩ := ht
    have : x ∈ raw.filter (fun x => decide (x ∉ rm)) := by rw [e]; simp [hx]
    have := List.mem_filter.1 this
    exact ⟨by simpa using this.2, this.1⟩
  rcases hs : findSub m (trim space (some rm) raw) with _ | j
  · have hn := c110_sub_none m _ hs
    rw [(c110_line space (some rm) m raw).2.1 hn] at h
    by_cases he : trim space (some rm) raw = []
    · rw [if_pos he] at h; cases h
    · rw [if_neg he] at h
      cases h
      exact ⟨he, (c110_trim_twice space (some rm) raw).2, hmem, hn⟩
  · obtain ⟨hf, hle⟩ := c110_sub_some m _ j hs
    generalize hp : (trim space (some rm) raw).take j = p at hf
    rw [(c110_line space (some rm) m raw).2.2 p hf] at h
    by_cases he : p = []
    · rw [if_pos he] at h; cases h
    · rw [if_neg he] at h
      cases h
      obtain ⟨a, b, e⟩ := c110_trim_infix space p
      have hfx := hf
      obtain ⟨⟨q, eq⟩, hfirst⟩ := hf
      refine ⟨?_, (c110_trim_twice space none p).1, ?_, ?_⟩
      · intro h0
        obtain ⟨a', b', e1, ha', hb', -⟩ := ((c110_trim space [] p _).2).1 rfl
        rw [h0] at e1
        have hall : ∀ x ∈ p, space x = true := by
          intro x hx
          rw [e1] at hx
          simp only [List.append_nil, List.mem_append] at hx
          rcases hx with hx | hx
          · exact ha' x hx
          · exact hb' x hx
        obtain ⟨a2, b2, -, -, -, hh, -⟩ := ht
        rcases p with _ | ⟨x, p⟩
        · exact he rfl
        · have := hh x (p ++ m ++ q) (by rw [eq]; simp)
          rw [hall x (by simp)] at this
          cases this
      · intro x hx
        refine hmem x ?_
        rw [eq]
        have : x ∈ p := by rw [e]; simp [hx]
        simp [this]
      · intro p' q' e'
        have h1 : trim space (some rm) raw = (a ++ p') ++ m ++ (q' ++ b ++ m ++ q) := by
          rw [eq, e, e']; simp
        have h2 := hfirst _ _ h1
        have h3 : p.length = a.length + (p'.length + m.length + q'.length) + b.length := by
          rw [e, e']; simp; omega
        have h4 : 0 < m.length := List.length_pos_iff.2 hm
        simp only [List.length_append] at h2
        omega

private theorem c110_get_ok (nl : α) : ∀ (l : List α) (n : Nat) (t : List α), nl ∉ l →
    l.length ≤ n → getline nl n (l ++ nl :: t) = ⟨l, false, false, t⟩
  | [], n, t, _, _ => by
    rw [List.nil_append]
    unfold getline
    rw [if_pos rfl]
  | x :: l, 0, t, h, hn => by simp at hn
  | x :: l, n + 1, t, h, hn => by
    have h1 : x ≠ nl := fun e => h (by simp [e])
    have h2 : nl ∉ l := fun e => h (by simp [e])
    rw [List.cons_append, getline, if_neg h1]
    simp only [c110_get_ok nl l n t h2 (by simpa using hn)]

private theorem c110_get_last (nl : α) : ∀ (l : List α) (n : Nat), nl ∉ l →
    l.length ≤ n → getline nl n l = ⟨l, true, false, []⟩
  | [], n, _, _ => by simp [getline]
  | x :: l, 0, h, hn => by simp at hn
  | x :: l, n + 1, h, hn => by
    have h1 : x ≠ nl := fun e => h (by simp [e])
    have h2 : nl ∉ l := fun e => h (by simp [e])
    rw [getline, if_neg h1]
    simp only [c110_get_last nl l n h2 (by simpa using hn)]

private theorem c110_get_long (nl : α) : ∀ (l : List α) (n : Nat) (t : List α), nl ∉ l →
    n < l.length → (getline nl n (l ++ t)).eof = false ∧ (getline nl n (l ++ t)).fail = true
  | [], n, t, _, hn => by simp at hn
  | x :: l, 0, t, h, hn => by
    have h1 : x ≠ nl := fun e => h (by simp [e])
    rw [List.cons_append, getline, if_neg h1]
    exact ⟨rfl, rfl⟩
  | x :: l, n + 1, t, h, hn => by
    have h1 : x ≠ nl := fun e => h (by simp [e])
    have h2 : nl ∉ l := fun e => h (by simp [e])
    rw [List.cons_append, getline, if_neg h1]
    exact c110_get_long nl l n t h2 (by simpa using hn)

private theorem c110_loop (space : α → Bool) (nl : α) (room : Nat) (rm cm : Option (List α)) :
    ∀ (t : List (List α)) (p : List α) (f k : Nat) (v : List (List α)), t.length < f →
      (∀ l ∈ p :: t, nl ∉ l) → (∀ l ∈ p :: t, l.length ≤ room) →
      parseLoop space nl room rm cm f k ([nl].intercalate (p :: t)) v =
        .lines (v ++ (p :: t).filterMap (cleanLine space rm cm))
  | [], p, f + 1, k, v, _, hn, hr => by
    rw [c110_join_one]
    unfold parseLoop
    rw [c110_get_last nl p room (hn p (by simp)) (hr p (by simp))]
    simp only [Bool.not_true, Bool.false_and, if_true, List.filterMap_cons, List.filterMap_nil]
    rcases cleanLine space rm cm p with _ | r <;> rfl
  | q :: t, p, f + 1, k, v, hf, hn, hr => by
    rw [c110_join]
    unfold parseLoop
    rw [c110_get_ok nl p room _ (hn p (by simp)) (hr p (by simp))]
    have ih := c110_loop space nl room rm cm t q f (k + 1)
      (v ++ (cleanLine space rm cm p).toList) (by simpa using hf)
      (fun l hl => hn l (List.mem_cons_of_mem _ hl)) (fun l hl => hr l (List.mem_cons_of_mem _ hl))
    simp only [Bool.and_false, Bool.false_eq_true, if_false]
    rw [ih, List.filterMap_cons (l := q :: t)]
    rcases cleanLine space rm cm p with _ | r <;> simp

private theorem c110_loop_long (space : α → Bool) (nl : α) (room : Nat) (rm cm : Option (List α))
    (l : List α) (b : List (List α)) (hl : nl ∉ l) (hlen : room < l.length) :
    ∀ (a : List (List α)) (f k : Nat) (v : List (List α)), a.length < f →
      (∀ x ∈ a, nl ∉ x) → (∀ x ∈ a, x.length ≤ room) →
      parseLoop space nl room rm cm f k ([nl].intercalate (a ++ l :: b)) v =
        .tooLong (k + a.length + 1)
  | [], f + 1, k, v, _, _, _ => by
    have : ∃ t, [nl].intercalate ([] ++ l :: b) = l ++ t := by
      rcases b with _ | ⟨q, b⟩
      · exact ⟨[], by simp⟩
      · exact ⟨_, c110_join nl l q b⟩
    obtain ⟨t, e⟩ := this
    obtain ⟨h1, h2⟩ := c110_get_long nl l room t hl hlen
    rw [e]
    unfold parseLoop
    simp [h1, h2]
  | p :: a, f + 1, k, v, hf, hn, hr => by
    have e : ∃ y ys, a ++ l :: b = y :: ys := by
      rcases a with _ | ⟨y, a⟩
      · exact ⟨l, b, rfl⟩
      · exact ⟨y, a ++ l :: b, rfl⟩
    obtain ⟨y, ys, e⟩ := e
    have ih := c110_loop_long space nl room rm cm l b hl hlen a f (k + 1)
      (v ++ (cleanLine space rm cm p).toList) (by simpa using hf)
      (fun x hx => hn x (List.mem_cons_of_mem _ hx)) (fun x hx => hr x (List.mem_cons_of_mem _ hx))
    rw [List.cons_append, e, c110_join]
    rw [e] at ih
    unfold parseLoop
    rw [c110_get_ok nl p room _ (hn p (by simp)) (hr p (by simp))]
    simp only [Bool.and_false, Bool.false_eq_true, if_false]
    rw [ih, List.length_cons]
    congr 1
    omega

/-- A file of lines shorter than `maxLineWidth` is read to its end, and the stored lines are what is
kept of each of its lines, in order. -/
theorem c110_file (space : α → Bool) (nl : α) (width : Nat) (rm cm : Option (List α))
    (raw : List (List α)) (hne : raw ≠ []) (hnl : ∀ l ∈ raw, nl ∉ l)
    (hw : ∀ l ∈ raw, l.length < width) :
    parseLines space nl width rm cm ([nl].intercalate raw) =
      .lines (raw.filterMap (cleanLine space rm cm)) := by
  rcases raw with _ | ⟨p, t⟩
  · exact absurd rfl hne
  · have := c110_join_length nl (p :: t)
    unfold parseLines
    rw [c110_loop space nl _ rm cm t p _ 0 [] (by simp at this ⊢; omega) hnl
      (fun l hl => by have := hw l hl; omega)]
    rfl

/-- A line of `maxLineWidth` characters or more stops the parsing, and the number reported is that of
the first such line. -/
theorem c110_long (space : α → Bool) (nl : α) (width : Nat) (rm cm : Option (List α))
    (a b : List (List α)) (l : List α) (h1 : 1 ≤ width) (hnl : ∀ x ∈ a, nl ∉ x) (hl : nl ∉ l)
    (ha : ∀ x ∈ a, x.length < width) (hlen : width ≤ l.length) :
    parseLines space nl width rm cm ([nl].intercalate (a ++ l :: b)) = .tooLong (a.length + 1) := by
  have := c110_join_length nl (a ++ l :: b)
  unfold parseLines
  rw [c110_loop_long space nl _ rm cm l b hl (by omega) a _ 0 []
    (by simp at this ⊢; omega) hnl (fun x hx => by have := ha x hx; omega)]
  simp

/-- Every file is of one of the two kinds: parsing always ends, with the lines or with the number of
the line that is too long. -/
theorem c110_ends (space : α → Bool) (nl : α) (width : Nat) (rm cm : Option (List α))
    (file : List α) (h1 : 1 ≤ width) :
    (∃ v, parseLines space nl width rm cm file = .lines v ∧ v.length ≤ file.count nl + 1) ∨
      ∃ k, parseLines space nl width rm cm file = .tooLong k ∧ 1 ≤ k ∧ k ≤ file.count nl + 1 := by
  obtain ⟨p, t, e, h, hl⟩ := c110_exists nl file
  by_cases hw : ∀ l ∈ p :: t, l.length < width
  · left
    refine ⟨_, by rw [e]; exact c110_file space nl width rm cm _ (by simp) h hw, ?_⟩
    have := List.length_filterMap_le (cleanLine space rm cm) (p :: t)
    simpa [hl] using this
  · right
    have key : ∀ L : List (List α), (¬ ∀ l ∈ L, l.length < width) →
        ∃ a l b, L = a ++ l :: b ∧ (∀ x ∈ a, x.length < width) ∧ width ≤ l.length := by
      intro L
      induction L with
      | nil => intro h; exact absurd (by simp) h
      | cons y L ih =>
        intro h
        by_cases hy : y.length < width
        · obtain ⟨a, l, b, e, ha, hb⟩ := ih (fun h' => h (by simpa [hy] using h'))
          refine ⟨y :: a, l, b, by rw [e]; rfl, ?_, hb⟩
          intro x hx
          rcases List.mem_cons.1 hx with rfl | hx
          · exact hy
          · exact ha x hx
        · exact ⟨[], y, L, rfl, by simp, by omega⟩
    obtain ⟨a, l, b, e2, ha, hb⟩ := key _ hw
    refine ⟨a.length + 1, ?_, by omega, ?_⟩
    · rw [e, e2]
      exact c110_long space nl width rm cm a b l h1
        (fun x hx => h x (by rw [e2]; simp [hx])) (h l (by rw [e2]; simp)) ha hb
    · have := congrArg List.length e2
      simp only [List.length_cons, List.length_append] at this
      omega

/-! A file of three lines, with quotes to take out and `##` to begin a comment. -/

private def c110_sp (c : Char) : Bool := c = ' ' || c = '\t'

example : trim c110_sp (some ['"']) " \"a b\" ".toList = "a b".toList := by decide +kernel

example : splitLine c110_sp ',' "a, b ,,c".toList =
    some ["a".toList, "b".toList, [], "c".toList] := by decide +kernel

example : cleanLine c110_sp (some ['"']) (some "##".toList) " \"x\" # y ## z".toList =
    some "x # y".toList := by decide +kernel

example : ∃ v, parseLines c110_sp '\n' 9 none (some "##".toList) " a\n## b\n c ## d".toList =
    .lines v ∧ v = ["a".toList, "c".toList] :=
  ⟨_, c110_file c110_sp '\n' 9 none (some "##".toList)
    [" a".toList, "## b".toList, " c ## d".toList] (by simp) (by decide +kernel)
    (by decide +kernel), by decide +kernel⟩

/-- A line of exactly `maxLineWidth` characters is already too long. -/
example : parseLines c110_sp '\n' 3 none none "ab\nabc\n".toList = .tooLong 2 :=
  c110_long c110_sp '\n' 3 none none ["ab".toList] [[]] "abc".toList (by omega)
    (by decide +kernel) (by decide +kernel) (by decide +kernel) (by decide +kernel)

end Gunns.Props
