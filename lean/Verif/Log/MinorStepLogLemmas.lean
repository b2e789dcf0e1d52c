import Verif.Log.MinorStepLogSpec
import Mathlib.Tactic.Common
import Mathlib.Data.List.Forall2

/-!
# Lemmas: the ring buffer holds the newest entries
-/

set_option linter.unusedSectionVars false

namespace Gunns.MinorLog

variable {V : Type _}

/-- The place of the frame of age `i`. -/
def slot (s : Log V) (i : Nat) : Nat := if i ≤ s.head then s.head - i else s.head + s.size - i

/-- The invariant that ties the buffer to the entries. -/
structure Inv (s : Log V) (es : List (Entry V)) : Prop where
  lenEq : s.len = if s.size = 0 then 1 else s.size
  zero : s.size = 0 → s.recording = false ∧ s.valid = 0 ∧ es = [] ∧ s.filename = none
  headLt : s.size ≠ 0 → s.head < s.size
  valid : s.size ≠ 0 → s.valid = min es.length s.size
  shows' : ∀ i, i < s.valid → ∀ e, es.reverse[i]? = some e → Shows s.numLinks (s.buf (slot s i)) e
  modeRec : s.mode = .recordingAuto ∨ s.mode = .recordingSnap → s.recording = true ∧ s.size ≠ 0
  file : s.filename.isSome = true ↔ s.mode = .writingFile

theorem Inv.len_pos {s : Log V} {es : List (Entry V)} (h : Inv s es) : 0 < s.len := by
  rw [h.lenEq]; split_ifs <;> omega

theorem Inv.size_of_rec {s : Log V} {es : List (Entry V)} (h : Inv s es) (hr : s.recording = true) :
    s.size ≠ 0 := by
  intro c
  have := (h.zero c).1
  rw [this] at hr; cases hr

theorem Inv.head_len {s : Log V} {es : List (Entry V)} (h : Inv s es) (hs : s.size ≠ 0) : s.head < s.len := by
  rw [h.lenEq, if_neg hs]; exact h.headLt hs

theorem editLast_concat (f : Entry V → Entry V) (es : List (Entry V)) (e : Entry V) :
    editLast f (es ++ [e]) = es ++ [f e] := by
  induction es with
  | nil => rfl
  | cons a es ih =>
    cases es with
    | nil => rfl
    | cons b es => simpa [editLast] using ih

theorem editLast_length (f : Entry V → Entry V) (es : List (Entry V)) :
    (editLast f es).length = es.length := by
  rcases List.eq_nil_or_concat es with rfl | ⟨l, e, rfl⟩
  · rfl
  · rw [List.concat_eq_append, editLast_concat]; simp

theorem editLast_get (f : Entry V → Entry V) (es : List (Entry V)) (i : Nat) :
    (editLast f es).reverse[i]? = if i = 0 then (es.reverse[i]?).map f else es.reverse[i]? := by
  rcases List.eq_nil_or_concat es with rfl | ⟨l, e, rfl⟩
  · simp [editLast]
  · rw [List.concat_eq_append, editLast_concat]
    cases i with
    | zero => simp
    | succ i => simp

theorem slot_zero (s : Log V) : slot s 0 = s.head := by simp [slot]

theorem slot_ne {s : Log V} (_h : s.head < s.size) {i : Nat} (hi : i < s.size) (h0 : i ≠ 0) :
    slot s i ≠ s.head := by unfold slot; split_ifs <;> omega

/-- Recording something about the newest minor step. -/
theorem onHead_inv {s : Log V} {es : List (Entry V)} (hI : Inv s es) (hr : s.recording = true)
    {g : Frame V → Frame V} {h : Entry V → Entry V}
    (hg : ∀ f e, Shows s.numLinks f e → Shows s.numLinks (g f) (h e)) :
    ∃ t, onHead g s = some t ∧ Inv t (editLast h es) ∧ t.numLinks = s.numLinks := by
  have hs := hI.size_of_rec hr
  have hh := hI.headLt hs
  refine ⟨_, if_pos (hI.head_len hs), ?_, rfl⟩
  refine ⟨hI.lenEq, fun c => absurd c hs, fun _ => hh, ?_, ?_, hI.modeRec, hI.file⟩
  · intro _; rw [editLast_length]; exact hI.valid hs
  · intro i hi e he
    have hi' : i < s.valid := hi
    have hv := hI.valid hs
    rw [editLast_get] at he
    have hslot : slot { s with buf := fun i => if i = s.head then g (s.buf i) else s.buf i } i = slot s i := rfl
    rw [hslot]
    by_cases h0 : i = 0
    · subst h0
      rw [if_pos rfl] at he
      cases hE : es.reverse[0]? with
      | none => rw [hE] at he; cases he
      | some e0 =>
        rw [hE] at he
        cases he
        have := hI.shows' 0 hi' e0 hE
        simp only [slot_zero, if_true]
        rw [slot_zero] at this
        exact hg _ _ this
    · rw [if_neg h0] at he
      have hne := slot_ne hh (i := i) (by omega) h0
      simp only [if_neg hne]
      exact hI.shows' i hi' e he

theorem recordAll_eq {s : Log V} (r : LinkResult) (hr : s.recording = true) (hl : s.head < s.len) :
    recordAllLinksResult r s = some { s with
      buf := fun i =>
        if i = s.head then { s.buf i with links := fun l => if l < s.numLinks then r else (s.buf i).links l }
        else s.buf i } := by
  unfold recordAllLinksResult
  refine loop_inv (P := fun k t => k ≤ s.numLinks → t = some { s with
      buf := fun i =>
        if i = s.head then { s.buf i with links := fun l => if l < k then r else (s.buf i).links l }
        else s.buf i }) s.numLinks ?_ ?_ (Nat.le_refl _)
  · intro _
    congr 1
    have : s.buf = fun i => if i = s.head then { s.buf i with links := fun l => if l < 0 then r else (s.buf i).links l } else s.buf i := by
      funext i; simp
    rw [← this]
  · intro k hk t ht hk'
    rw [ht (by omega)]
    simp only [Option.bind_some, recordLinkResult, hr, if_true, if_pos hk, onHead, if_pos hl]
    congr 1
    congr 1
    funext i
    by_cases hi : i = s.head
    · simp only [hi, if_true]
      congr 1
      funext l
      by_cases h1 : l = k
      · subst h1; simp
      · simp only [if_neg h1]
        by_cases h2 : l < k
        · rw [if_pos h2, if_pos (by omega)]
        · rw [if_neg h2, if_neg (by omega)]
    · simp only [hi, if_false]

theorem beginMinor_inv {s : Log V} {es : List (Entry V)} (hI : Inv s es) (hr : s.recording = true) (a b : Int) :
    ∃ t, beginMinorStep a b s = some t ∧ Inv t (es ++ [.begun a b]) ∧ t.numLinks = s.numLinks := by
  have hs := hI.size_of_rec hr
  have hh := hI.headLt hs
  have hlen : s.len = s.size := by rw [hI.lenEq, if_neg hs]
  have hv := hI.valid hs
  have hstep : step s = { s with
      head := if s.size ≤ s.head + 1 then 0 else s.head + 1
      valid := if s.valid < s.size then s.valid + 1 else s.valid } := by
    unfold step; rw [if_pos hr]
  have hl' : (step s).head < (step s).len := by
    rw [hstep]; show (if s.size ≤ s.head + 1 then 0 else s.head + 1) < s.len
    split_ifs <;> omega
  have hr' : (step s).recording = true := by rw [hstep]; exact hr
  unfold beginMinorStep
  rw [if_pos hr, onHead, if_pos hl', Option.bind_some]
  refine ⟨_, recordAll_eq .confirm ?_ ?_, ?_, ?_⟩
  · exact hr'
  · exact hl'
  rotate_left
  · rw [hstep]
  rw [hstep]
  refine ⟨hI.lenEq, fun c => absurd c hs, ?_, ?_, ?_, hI.modeRec, hI.file⟩
  · intro _; show (if s.size ≤ s.head + 1 then 0 else s.head + 1) < s.size
    split_ifs <;> omega
  · intro _
    show (if s.valid < s.size then s.valid + 1 else s.valid) = min (es ++ [Entry.begun a b]).length s.size
    rw [List.length_append, List.length_singleton]
    split_ifs <;> omega
  · intro i hi e he
    have hi' : i < (if s.valid < s.size then s.valid + 1 else s.valid) := hi
    cases i with
    | zero =>
      have : e = Entry.begun a b := by simpa using he.symm
      subst this
      have : slot { s with
          head := if s.size ≤ s.head + 1 then 0 else s.head + 1
          valid := if s.valid < s.size then s.valid + 1 else s.valid } 0 =
          (if s.size ≤ s.head + 1 then 0 else s.head + 1) := by simp [slot]
      simp only [slot, Nat.zero_le, if_true, Nat.sub_zero]
      constructor <;> intros <;> simp_all [Entry.begun]
    | succ i =>
      have he' : es.reverse[i]? = some e := by simpa using he
      have hi2 : i + 1 < s.size := by split_ifs at hi' <;> omega
      have hi3 : i < s.valid := by split_ifs at hi' <;> omega
      have hold := hI.shows' i hi3 e he'
      have hsl : (if i + 1 ≤ (if s.size ≤ s.head + 1 then 0 else s.head + 1) then
          (if s.size ≤ s.head + 1 then 0 else s.head + 1) - (i + 1)
          else (if s.size ≤ s.head + 1 then 0 else s.head + 1) + s.size - (i + 1)) = slot s i := by
        unfold slot; split_ifs <;> omega
      have hne : slot s i ≠ (if s.size ≤ s.head + 1 then 0 else s.head + 1) := by
        unfold slot; split_ifs <;> omega
      show Shows s.numLinks _ e
      simp only [slot]
      rw [hsl]
      simp only [if_neg hne]
      exact hold

theorem start_inv {s : Log V} {es : List (Entry V)} (hI : Inv s es) (hs : s.size ≠ 0) {m : Mode}
    (hm : m = .recordingAuto ∨ m = .recordingSnap) (hp : s.mode = .paused) :
    Inv { startLogging s with mode := m } [] := by
  have hf : s.filename.isSome = false := by
    have := hI.file
    rw [hp] at this
    cases hfn : s.filename.isSome with
    | false => rfl
    | true => rw [hfn] at this; exact absurd (this.1 rfl) (by intro c; cases c)
  refine ⟨hI.lenEq, fun c => absurd c hs, ?_, ?_, ?_, ?_, ?_⟩
  · intro _; show predSize s.size < s.size; unfold predSize; rw [if_neg hs]; omega
  · intro _; simp [startLogging]
  · intro i hi; exact absurd hi (Nat.not_lt_zero _)
  · intro _; exact ⟨rfl, hs⟩
  · show s.filename.isSome = true ↔ m = .writingFile
    rw [hf]; rcases hm with rfl | rfl <;> simp

theorem freeze_inv {s : Log V} {es : List (Entry V)} (hI : Inv s es) :
    Inv (updateFreeze s) (if s.size ≠ s.logSteps ∧ s.logSteps ≠ 0 then [] else es) ∧
      (updateFreeze s).numLinks = s.numLinks := by
  unfold updateFreeze
  by_cases h : s.size ≠ s.logSteps ∧ s.logSteps ≠ 0
  · rw [if_pos h, if_pos ⟨h.1, by omega, hI.len_pos⟩]
    refine ⟨⟨?_, ?_, ?_, ?_, ?_, ?_, hI.file⟩, rfl⟩
    · show s.logSteps = if s.logSteps = 0 then 1 else s.logSteps; rw [if_neg h.2]
    · intro c; exact absurd c h.2
    · intro _; show predSize s.logSteps < s.logSteps; unfold predSize; rw [if_neg h.2]; omega
    · intro _; simp [startLogging]
    · intro i hi; exact absurd hi (Nat.not_lt_zero _)
    · intro _; exact ⟨rfl, h.2⟩
  · rw [if_neg h, if_neg (by intro c; exact h ⟨c.1, by omega⟩)]
    exact ⟨hI, rfl⟩

/-- Changing only the command, mode, file name and stopping. -/
theorem control_inv {s t : Log V} {es : List (Entry V)} (hI : Inv s es)
    (h1 : t.buf = s.buf) (h2 : t.len = s.len) (h3 : t.size = s.size) (h4 : t.head = s.head)
    (h5 : t.valid = s.valid) (h6 : t.numLinks = s.numLinks)
    (hz : s.size = 0 → t.recording = false ∧ t.filename = none)
    (hm : t.mode = .recordingAuto ∨ t.mode = .recordingSnap → t.recording = true ∧ t.size ≠ 0)
    (hf : t.filename.isSome = true ↔ t.mode = .writingFile) : Inv t es := by
  refine ⟨by rw [h2, h3]; exact hI.lenEq, ?_, ?_, ?_, ?_, hm, hf⟩
  · intro c
    rw [h3] at c
    exact ⟨(hz c).1, by rw [h5]; exact (hI.zero c).2.1, (hI.zero c).2.2.1, (hz c).2⟩
  · rw [h3, h4]; exact hI.headLt
  · rw [h3, h5]; exact hI.valid
  · intro i hi e he
    rw [h5] at hi
    have : slot t i = slot s i := by unfold slot; rw [h3, h4]
    rw [this, h1, h6]
    exact hI.shows' i hi e he

theorem dump_inv {s : Log V} {es : List (Entry V)} (hI : Inv s es) (hs : s.size ≠ 0) :
    ∃ t, initiateDump s = some t ∧ Inv t es ∧ t.numLinks = s.numLinks ∧ t.mode = .writingFile ∧
      t.recording = false ∧ t.filename = some (s.buf s.head).major ∧ t.command = s.command := by
  unfold initiateDump headFrame
  rw [if_pos (hI.head_len hs)]
  refine ⟨_, rfl, ?_, rfl, rfl, rfl, rfl, rfl⟩
  refine control_inv hI rfl rfl rfl rfl rfl rfl (fun c => absurd c hs) ?_ ?_
  · intro c; rcases c with c | c <;> exact absurd c (by intro c; cases c)
  · exact ⟨fun _ => rfl, fun _ => rfl⟩

theorem major_inv {s : Log V} {es : List (Entry V)} (hI : Inv s es) :
    ∃ t, beginMajorStep s = some t ∧ Inv t (track s .beginMajor es) ∧ t.numLinks = s.numLinks := by
  by_cases hs : s.size = 0
  · have hR : ¬ Restarts s (.beginMajor : Op V) := fun c => c.1 hs
    have htr : track s .beginMajor es = es := by
      unfold track; rw [if_neg hR]; split_ifs <;> rfl
    rw [htr]
    unfold beginMajorStep
    simp only [checkSize, if_pos hs]
    refine ⟨_, rfl, ?_, rfl⟩
    refine control_inv hI rfl rfl rfl rfl rfl rfl (fun _ => ⟨rfl, (hI.zero hs).2.2.2⟩) ?_ ?_
    · intro c; rcases c with c | c <;> exact absurd c (by intro c; cases c)
    · show s.filename.isSome = true ↔ _
      rw [(hI.zero hs).2.2.2]
      exact ⟨fun c => (by cases c), fun c => (by cases c)⟩
  · unfold beginMajorStep
    simp only [checkSize, if_neg hs]
    have keep : ¬ Restarts s (.beginMajor : Op V) → track s .beginMajor es = es := by
      intro hR; unfold track; rw [if_neg hR]; split_ifs <;> rfl
    by_cases hw : s.mode = .writingFile
    · rw [if_neg (not_not.2 hw), keep (fun c => by have := c.2.1; rw [hw] at this; cases this)]
      exact ⟨s, rfl, hI, rfl⟩
    · rw [if_pos hw]
      have hf : s.filename.isSome = false := by
        cases hfn : s.filename.isSome with
        | false => rfl
        | true => exact absurd (hI.file.1 hfn) hw
      have hrecm : ∀ m : Mode, (m = .recordingAuto ∨ m = .recordingSnap) →
          (s.command = .recordAuto ∨ s.command = .recordSnap) →
          Inv { (if s.mode = .paused then startLogging s else s) with mode := m } (track s .beginMajor es) ∧
          ({ (if s.mode = .paused then startLogging s else s) with mode := m } : Log V).numLinks = s.numLinks := by
        intro m hm hc
        by_cases hp : s.mode = .paused
        · have hR : Restarts s (.beginMajor : Op V) := ⟨hs, hp, hc⟩
          have : track s .beginMajor es = [] := by unfold track; rw [if_pos hR]
          rw [this, if_pos hp]
          exact ⟨start_inv hI hs hm hp, rfl⟩
        · rw [keep (fun c => hp c.2.1), if_neg hp]
          have hrec : s.mode = .recordingAuto ∨ s.mode = .recordingSnap := by
            cases h : s.mode
            · exact absurd h hp
            · exact Or.inl rfl
            · exact Or.inr rfl
            · exact absurd h hw
          refine ⟨control_inv hI rfl rfl rfl rfl rfl rfl (fun c => absurd c hs) (fun _ => hI.modeRec hrec) ?_, rfl⟩
          show s.filename.isSome = true ↔ m = .writingFile
          rw [hf]; rcases hm with rfl | rfl <;> simp
      cases hc : s.command with
      | pause =>
        rw [keep (fun c => by have := c.2.2; rw [hc] at this; rcases this with h | h <;> cases h)]
        refine ⟨_, rfl, control_inv hI rfl rfl rfl rfl rfl rfl (fun c => absurd c hs) ?_ ?_, rfl⟩
        · intro c; rcases c with c | c <;> exact absurd c (by intro c; cases c)
        · show s.filename.isSome = true ↔ Mode.paused = .writingFile
          rw [hf]; simp
      | recordAuto => exact ⟨_, rfl, (hrecm .recordingAuto (Or.inl rfl) (Or.inl hc)).1, (hrecm .recordingAuto (Or.inl rfl) (Or.inl hc)).2⟩
      | recordSnap => exact ⟨_, rfl, (hrecm .recordingSnap (Or.inr rfl) (Or.inr hc)).1, (hrecm .recordingSnap (Or.inr rfl) (Or.inr hc)).2⟩
      | snap =>
        rw [keep (fun c => by have := c.2.2; rw [hc] at this; rcases this with h | h <;> cases h)]
        have hI' : ∀ c : Command, Inv { s with command := c } es := fun c =>
          control_inv hI rfl rfl rfl rfl rfl rfl (fun c => absurd c hs) hI.modeRec hI.file
        obtain ⟨t, h1, h2, h3, -⟩ := dump_inv (hI' (if s.mode = .paused then .pause
          else if s.mode = .recordingAuto then .recordAuto else .recordSnap)) hs
        exact ⟨t, h1, h2, h3⟩

theorem headOffset_eq {s : Log V} (hh : s.head < s.size) {i : Nat} (hv : i < s.size) :
    headOffset s (-(i : Int)) = (slot s i : Nat) := by
  unfold headOffset slot
  show (if (s.head : Int) + -(i : Int) < 0 then (s.head : Int) + -(i : Int) + s.size
    else if (s.size : Int) ≤ (s.head : Int) + -(i : Int) then (s.head : Int) + -(i : Int) - s.size
      else (s.head : Int) + -(i : Int)) = _
  split_ifs <;> omega

/-- The frames held, oldest first. -/
def held (s : Log V) : List (Frame V) := (List.range s.valid).map (fun i => s.buf (slot s (s.valid - 1 - i)))

theorem mapM_some_map {α β : Type _} (f : α → Option β) (g : α → β) (l : List α)
    (h : ∀ a ∈ l, f a = some (g a)) : l.mapM f = some (l.map g) := by
  induction l with
  | nil => rfl
  | cons a l ih =>
    rw [List.mapM_cons, h a (by simp), ih (fun b hb => h b (by simp [hb]))]
    rfl

theorem render_eq {s : Log V} {es : List (Entry V)} (hI : Inv s es) :
    renderOutput s = some (if s.recording then .failure else .table (held s)) := by
  unfold renderOutput
  cases hr : s.recording with
  | true => rfl
  | false =>
    have h0 : frameAt s 0 = some (s.buf 0) := by
      unfold frameAt
      rw [if_pos ⟨Int.le_refl _, by have := hI.len_pos; omega⟩]; rfl
    have hm : (List.range s.valid).mapM
        (fun i : Nat => frameAt s (headOffset s (1 - (s.valid : Int) + (i : Int)))) = some (held s) := by
      refine mapM_some_map _ _ _ ?_
      intro i hi
      have hi' : i < s.valid := List.mem_range.1 hi
      have hs : s.size ≠ 0 := by
        intro c
        have := (hI.zero c).2.1
        omega
      have hh := hI.headLt hs
      have hv := hI.valid hs
      have : (1 - (s.valid : Int) + (i : Int)) = -((s.valid - 1 - i : Nat) : Int) := by omega
      rw [this, headOffset_eq hh (by omega)]
      unfold frameAt
      have hsl : slot s (s.valid - 1 - i) < s.size := by unfold slot; split_ifs <;> omega
      have hlen : s.len = s.size := by rw [hI.lenEq, if_neg hs]
      rw [if_pos ⟨by omega, by omega⟩]
      rfl
    simp only [Bool.not_false, if_true, h0, hm, Option.bind_eq_bind, Option.bind_some, Option.pure_def]
    rfl

theorem async_inv {s : Log V} {es : List (Entry V)} (hI : Inv s es) (ok : Bool) :
    ∃ t, updateAsync ok s = some t ∧ Inv t es ∧ t.numLinks = s.numLinks := by
  unfold updateAsync
  cases hf : s.filename with
  | none => exact ⟨s, rfl, hI, rfl⟩
  | some m =>
    have fin : ∀ d, Inv { s with
        disk := d
        filename := none
        mode := .paused } es := by
      intro d
      refine control_inv hI rfl rfl rfl rfl rfl rfl ?_ ?_ ?_
      · intro c; exact ⟨(hI.zero c).1, rfl⟩
      · intro c; rcases c with c | c <;> exact absurd c (by intro c; cases c)
      · exact ⟨fun c => (by cases c), fun c => (by cases c)⟩
    cases ok with
    | false => exact ⟨_, rfl, fin s.disk, rfl⟩
    | true =>
      simp only [if_true, render_eq hI, Option.bind_eq_bind, Option.bind_some, Option.pure_def]
      exact ⟨_, rfl, fin _, rfl⟩

theorem end_inv {s : Log V} {es : List (Entry V)} (hI : Inv s es) :
    ∃ t, endMajorStep s = some t ∧ Inv t es ∧ t.numLinks = s.numLinks := by
  unfold endMajorStep
  by_cases hm : s.mode = .recordingAuto
  · have hs := (hI.modeRec (Or.inl hm)).2
    rw [if_pos hm, headFrame, if_pos (hI.head_len hs)]
    simp only [Option.bind_eq_bind, Option.bind_some]
    split_ifs
    · obtain ⟨t, h1, h2, h3, -⟩ := dump_inv hI hs
      exact ⟨t, h1, h2, h3⟩
    · exact ⟨s, rfl, hI, rfl⟩
  · rw [if_neg hm]; exact ⟨s, rfl, hI, rfl⟩

theorem op_inv {s : Log V} {es : List (Entry V)} (hI : Inv s es) {o : Op V} (ho : OpOk s.numLinks o) :
    ∃ t, o.run s = some t ∧ Inv t (track s o es) ∧ t.numLinks = s.numLinks := by
  have edit : ∀ (g : Frame V → Frame V) (h : Entry V → Entry V),
      (∀ f e, Shows s.numLinks f e → Shows s.numLinks (g f) (h e)) →
      ∃ t, (if s.recording then onHead g s else some s) = some t ∧
        Inv t (if s.recording then editLast h es else es) ∧ t.numLinks = s.numLinks := by
    intro g h hg
    cases hr : s.recording with
    | true => exact onHead_inv hI hr hg
    | false => exact ⟨s, rfl, hI, rfl⟩
  cases o with
  | command c =>
    refine ⟨_, rfl, ?_, rfl⟩
    have : track s (.command c) es = es := by
      unfold track; rw [if_neg (by simp [Restarts])]; split_ifs <;> rfl
    rw [this]
    exact control_inv hI rfl rfl rfl rfl rfl rfl (fun c => ⟨(hI.zero c).1, (hI.zero c).2.2.2⟩) hI.modeRec hI.file
  | logSteps n =>
    refine ⟨_, rfl, ?_, rfl⟩
    have : track s (.logSteps n) es = es := by
      unfold track; rw [if_neg (by simp [Restarts])]; split_ifs <;> rfl
    rw [this]
    exact control_inv hI rfl rfl rfl rfl rfl rfl (fun c => ⟨(hI.zero c).1, (hI.zero c).2.2.2⟩) hI.modeRec hI.file
  | beginMajor => exact major_inv hI
  | beginMinor a b =>
    have : track s (.beginMinor a b) es = if s.recording then es ++ [.begun a b] else es := by
      unfold track; rw [if_neg (by simp [Restarts])]
    rw [this]
    cases hr : s.recording with
    | true => exact beginMinor_inv hI hr a b
    | false => exact ⟨s, by simp [Op.run, beginMinorStep, hr], hI, rfl⟩
  | potential v =>
    have : track s (.potential v) es =
        if s.recording then editLast (fun e => { e with potential := some v }) es else es := by
      unfold track; rw [if_neg (by simp [Restarts])]
    rw [this]
    refine edit _ _ (fun f e h => ⟨h.major, h.minor, h.step, ?_, h.conv, h.contrib, h.links⟩)
    intro w hw; cases hw; rfl
  | convergence v =>
    have : track s (.convergence v) es =
        if s.recording then editLast (fun e => { e with conv := some v }) es else es := by
      unfold track; rw [if_neg (by simp [Restarts])]
    rw [this]
    refine edit _ _ (fun f e h => ⟨h.major, h.minor, h.step, h.potential, ?_, h.contrib, h.links⟩)
    intro w hw; cases hw; rfl
  | contributions v =>
    have : track s (.contributions v) es =
        if s.recording then editLast (fun e => { e with contrib := some v }) es else es := by
      unfold track; rw [if_neg (by simp [Restarts])]
    rw [this]
    refine edit _ _ (fun f e h => ⟨h.major, h.minor, h.step, h.potential, h.conv, ?_, h.links⟩)
    intro w hw; cases hw; rfl
  | linkResult l r =>
    have : track s (.linkResult l r) es =
        if s.recording then editLast (fun e => { e with links := fun k => if k = l then r else e.links k }) es
        else es := by
      unfold track; rw [if_neg (by simp [Restarts])]
    rw [this]
    have hl : l < s.numLinks := ho
    have hrun : Op.run s (.linkResult l r) = if s.recording then
        onHead (fun f => { f with links := fun k => if k = l then r else f.links k }) s else some s := by
      simp only [Op.run, recordLinkResult, if_pos hl]
    rw [hrun]
    refine edit _ _ (fun f e h => ⟨h.major, h.minor, h.step, h.potential, h.conv, h.contrib, ?_⟩)
    intro k hk
    show (if k = l then r else f.links k) = (if k = l then r else e.links k)
    rw [h.links k hk]
  | stepResult d r =>
    have : track s (.stepResult d r) es =
        if s.recording then editLast (fun e => { e with step := some (d, r) }) es else es := by
      unfold track; rw [if_neg (by simp [Restarts])]
    rw [this]
    refine edit _ _ (fun f e h => ⟨h.major, h.minor, ?_, h.potential, h.conv, h.contrib, h.links⟩)
    intro d' r' hw; cases hw; exact ⟨rfl, rfl⟩
  | endMajor =>
    have : track s .endMajor es = es := by
      unfold track; rw [if_neg (by simp [Restarts])]; split_ifs <;> rfl
    rw [this]; exact end_inv hI
  | async ok =>
    have : track s (.async ok) es = es := by
      unfold track; rw [if_neg (by simp [Restarts])]; split_ifs <;> rfl
    rw [this]; exact async_inv hI ok
  | freeze =>
    have : track s .freeze es = if s.size ≠ s.logSteps ∧ s.logSteps ≠ 0 then [] else es := by
      unfold track
      by_cases h : s.size ≠ s.logSteps ∧ s.logSteps ≠ 0
      · rw [if_pos (show Restarts s (.freeze : Op V) from h), if_pos h]
      · rw [if_neg (show ¬ Restarts s (.freeze : Op V) from h), if_neg h]; split_ifs <;> rfl
    rw [this]
    exact ⟨_, rfl, (freeze_inv hI).1, (freeze_inv hI).2⟩

theorem run_inv {s : Log V} {es : List (Entry V)} (hI : Inv s es) (os : List (Op V))
    (ho : ∀ o ∈ os, OpOk s.numLinks o) :
    ∃ t, runAll s os = some t ∧ Inv t (trackAll s es os) ∧ t.numLinks = s.numLinks := by
  induction os generalizing s es with
  | nil => exact ⟨s, rfl, hI, rfl⟩
  | cons o os ih =>
    obtain ⟨t, h1, h2, h3⟩ := op_inv hI (ho o (by simp))
    obtain ⟨u, h4, h5, h6⟩ := ih h2 (fun o' ho' => by rw [h3]; exact ho o' (by simp [ho']))
    refine ⟨u, by rw [runAll, h1]; exact h4, ?_, by rw [h6, h3]⟩
    rw [trackAll, h1]
    exact h5

theorem init_inv {c : Command} {n : Nat} {g f : Frame V} {e : Bool} {a b : Int} {s : Log V}
    (h : initLog (construct c n g) e a b f = some s) : Inv s [] ∧ s.numLinks = b.toNat := by
  unfold initLog at h
  split_ifs at h with hv
  cases h
  have hI : Inv ({ construct c n g with
      buf := fun i => if i = (construct c n g).len then f else (construct c n g).buf i
      len := (construct c n g).len + 1
      head := predSize (construct c n g).size
      valid := 0
      numLinks := b.toNat } : Log V) [] := by
    refine ⟨rfl, fun _ => ⟨rfl, rfl, rfl, rfl⟩, fun c => absurd rfl c, fun c => absurd rfl c, ?_, ?_, ?_⟩
    · intro i hi; exact absurd hi (Nat.not_lt_zero _)
    · intro c; rcases c with c | c <;> exact absurd c (by intro c; cases c)
    · exact ⟨fun c => (by cases c), fun c => (by cases c)⟩
  have := freeze_inv hI
  refine ⟨?_, this.2⟩
  have h2 := this.1
  split_ifs at h2 <;> exact h2

theorem held_shows {s : Log V} {es : List (Entry V)} (hI : Inv s es) :
    List.Forall₂ (Shows s.numLinks) (held s) (es.drop (es.length - s.size)) := by
  by_cases hs : s.size = 0
  · obtain ⟨-, h2, h3, -⟩ := hI.zero hs
    subst h3
    simp [held, h2]
  · have hv := hI.valid hs
    rw [List.forall₂_iff_get]
    have hlen : (held s).length = (es.drop (es.length - s.size)).length := by
      simp only [held, List.length_map, List.length_range, List.length_drop]; omega
    refine ⟨hlen, ?_⟩
    intro i hi hi2
    have hi' : i < s.valid := by simpa [held] using hi
    have hi2' : i < es.length - (es.length - s.size) := by simpa using hi2
    have hlhs : (held s).get ⟨i, hi⟩ = s.buf (slot s (s.valid - 1 - i)) := by simp [held]
    rw [hlhs]
    refine hI.shows' (s.valid - 1 - i) (by omega) _ ?_
    rw [List.getElem?_reverse (by omega)]
    simp only [List.get_eq_getElem, List.getElem_drop]
    rw [List.getElem?_eq_getElem (by omega)]
    congr 2
    omega

end Gunns.MinorLog
