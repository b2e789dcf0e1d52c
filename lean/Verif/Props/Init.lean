import Verif.Solver.Init
import Mathlib.Data.Rat.Defs
import Mathlib.Algebra.Order.Ring.Rat
import Mathlib.Data.List.Basic
import Mathlib.Tactic.SplitIfs

/-!
# Initialisation of the solver (C18)
-/

namespace Gunns.Props
open Gunns.Init

variable {K : Type _} [LinearOrder K] [Zero K]

/-- What a complete, duplicate-free network with a sound configuration is. -/
structure Proper (c : Config K) (links : List LinkRef) (s : Net) : Prop where
  named : c.nameEmpty = false
  tolerance : 0 < c.tolerance
  linearization : 0 < c.minLinearization
  minor : 0 < c.minorLimit
  decomp : 0 < c.decompLimit
  /-- each registered link is initialised, and there is one -/
  linksInited : ∀ l ∈ links, l.inited = true
  linksSome : links ≠ []
  /-- no link is registered twice -/
  linksDistinct : (links.map LinkRef.addr).Nodup
  /-- there is a ground node and at least one other, and all are valid -/
  nodes : ∃ l, s.nodes = some l ∧ 2 ≤ l.length ∧ ∀ v ∈ l, v = true

theorem configOk_iff (c : Config K) : configOk c = true ↔
    0 < c.tolerance ∧ 0 < c.minLinearization ∧ 0 < c.minorLimit ∧ 0 < c.decompLimit := by
  unfold configOk
  split_ifs with h1 h2 h3 h4
  · simp [not_lt.mpr h1]
  · simp [not_lt.mpr h2]
  · simp only [false_iff]; omega
  · simp only [false_iff]; omega
  · simp only [true_iff]
    exact ⟨not_le.mp h1, not_le.mp h2, by omega, by omega⟩

theorem noEarlier_iff (links : List LinkRef) (i : Nat) : noEarlier links i = true ↔
    ∀ j, j < i → links[j]?.map LinkRef.addr ≠ links[i]?.map LinkRef.addr := by
  have := loop_inv (f := fun j ok =>
      if links[j]?.map LinkRef.addr = links[i]?.map LinkRef.addr then false else ok) (s := true)
    (P := fun k (t : Bool) => t = true ↔
      ∀ j, j < k → links[j]?.map LinkRef.addr ≠ links[i]?.map LinkRef.addr) i (by simp) ?_
  · exact this
  · intro k _ t ht
    by_cases h : links[k]?.map LinkRef.addr = links[i]?.map LinkRef.addr
    · simp only [h, if_true, Bool.false_eq_true, false_iff]
      exact fun hc => hc k (Nat.lt_succ_self k) h
    · simp only [h, if_false]
      rw [ht]
      constructor
      · intro hh j hj
        rcases Nat.lt_succ_iff_lt_or_eq.mp hj with h1 | rfl
        · exact hh j h1
        · exact h
      · intro hh j hj; exact hh j (Nat.lt_succ_of_lt hj)

theorem linksOk_iff (links : List LinkRef) : linksOk links = true ↔
    (∀ l ∈ links, l.inited = true) ∧ (links.map LinkRef.addr).Nodup := by
  have := loop_inv (f := fun i ok =>
      if !ok then false
      else if !((links[i]?.map LinkRef.inited).getD false) then false
      else noEarlier links i) (s := true)
    (P := fun k (t : Bool) => t = true ↔ ∀ i, i < k →
      (links[i]?.map LinkRef.inited).getD false = true ∧
      ∀ j, j < i → links[j]?.map LinkRef.addr ≠ links[i]?.map LinkRef.addr) links.length (by simp) ?_
  · have h : linksOk links = true ↔ _ := this
    rw [h]
    constructor
    · intro hh
      constructor
      · intro l hl
        obtain ⟨i, hi, he⟩ := List.getElem_of_mem hl
        have := (hh i hi).1
        rw [List.getElem?_eq_getElem hi, he] at this
        exact this
      · rw [List.Nodup, List.pairwise_iff_getElem]
        intro i j hi hj hij
        rw [List.length_map] at hi hj
        have := (hh j hj).2 i hij
        rw [List.getElem?_eq_getElem hi, List.getElem?_eq_getElem hj] at this
        simpa using this
    · rintro ⟨h1, h2⟩ i hi
      constructor
      · rw [List.getElem?_eq_getElem hi]
        exact h1 _ (List.getElem_mem hi)
      · intro j hj
        rw [List.Nodup, List.pairwise_iff_getElem] at h2
        have := h2 j i (by rw [List.length_map]; omega) (by rw [List.length_map]; omega) hj
        rw [List.getElem?_eq_getElem hi, List.getElem?_eq_getElem (by omega)]
        simpa using this
  · intro k hk t ht
    cases t
    · simp only [Bool.not_false, if_true, Bool.false_eq_true, false_iff] at *
      exact fun h => ht fun i hi => h i (Nat.lt_succ_of_lt hi)
    · simp only [Bool.not_true, Bool.false_eq_true, if_false, true_iff] at *
      rw [show ((if (!((links[k]?.map LinkRef.inited).getD false)) = true then false
        else noEarlier links k) = true) ↔ ((links[k]?.map LinkRef.inited).getD false = true ∧
          noEarlier links k = true) by
        cases (links[k]?.map LinkRef.inited).getD false <;> simp]
      rw [noEarlier_iff]
      constructor
      · intro hh i hi
        rcases Nat.lt_succ_iff_lt_or_eq.mp hi with h1 | rfl
        · exact ht i h1
        · exact hh
      · intro hh; exact hh k (Nat.lt_succ_self k)

theorem nodesOk_iff (s : Net) : nodesOk s = true ↔
    ∃ l, s.nodes = some l ∧ 2 ≤ l.length ∧ ∀ v ∈ l, v = true := by
  unfold nodesOk
  cases hs : s.nodes with
  | none =>
    have : s.size < 1 := by unfold Net.size Net.numNodes; rw [hs]; simp
    rw [if_pos this]; simp
  | some l =>
    have hn : s.numNodes = l.length := by unfold Net.numNodes; rw [hs]; rfl
    have hz : s.size = (l.length : Int) - 1 := by unfold Net.size; rw [hn]
    have hall : loop (fun i ok => ok && (Option.getD (some l) [])[i]?.getD false) s.numNodes true = true ↔
        ∀ v ∈ l, v = true := by
      have := loop_inv (f := fun i ok => ok && (Option.getD (some l) [])[i]?.getD false) (s := true)
        (P := fun k (t : Bool) => t = true ↔ ∀ i, i < k → l[i]?.getD false = true) s.numNodes (by simp) ?_
      · rw [this, hn]
        constructor
        · intro h v hv
          obtain ⟨i, hi, he⟩ := List.getElem_of_mem hv
          have := h i hi
          rw [List.getElem?_eq_getElem hi, he] at this
          exact this
        · intro h i hi
          rw [List.getElem?_eq_getElem hi]
          exact h _ (List.getElem_mem hi)
      · intro k _ t ht
        rw [Bool.and_eq_true, ht]
        constructor
        · rintro ⟨h1, h2⟩ i hi
          rcases Nat.lt_succ_iff_lt_or_eq.mp hi with h3 | rfl
          · exact h1 i h3
          · exact h2
        · intro h; exact ⟨fun i hi => h i (Nat.lt_succ_of_lt hi), h k (Nat.lt_succ_self k)⟩
    rw [hz]
    by_cases hlen : (l.length : Int) - 1 < 1
    · rw [if_pos hlen]
      simp only [Bool.false_eq_true, Option.some.injEq, false_iff, not_exists]
      rintro l' ⟨rfl, h, _⟩
      omega
    · rw [if_neg hlen, hall]
      constructor
      · intro h; exact ⟨l, rfl, by omega, h⟩
      · rintro ⟨l', h1, _, h3⟩
        rw [Option.some.inj h1]; exact h3

/-- C18: initialisation succeeds exactly on the first attempt, for a proper network with an
orchestrator; otherwise it is refused with an exception, except that a proper network whose
orchestrator was set to null is undefined behaviour. The init flag says whether it succeeded. -/
theorem c18_init (c : Config K) (links : List LinkRef) (s : Net) :
    ((initialize' c links s).2 = .ok ↔
      s.attempted = false ∧ Proper c links s ∧ s.orchestrator = true) ∧
    ((initialize' c links s).1.flag = true ↔ (initialize' c links s).2 = .ok) ∧
    (initialize' c links s).1.attempted = true ∧
    ((initialize' c links s).2 = .undefined → s.orchestrator = false) := by
  have hk := configOk_iff c
  have hl := linksOk_iff links
  have hno := nodesOk_iff { s with flag := false, attempted := true }
  have hsz : ∀ l, s.nodes = some l → s.size = (l.length : Int) - 1 := by
    intro l h; unfold Net.size Net.numNodes; rw [h]; rfl
  unfold initialize'
  dsimp only
  cases ha : s.attempted
  · rw [if_neg (by simp)]
    split_ifs with h1 h2 h3 h4 h5 h6 h7
    · refine ⟨⟨fun h => h.elim, fun h => ?_⟩, by simp, rfl, by simp⟩
      rw [h.2.1.named] at h1; exact Bool.noConfusion h1
    · refine ⟨⟨fun h => h.elim, fun h => ?_⟩, by simp, rfl, by simp⟩
      rw [hk.mpr ⟨h.2.1.tolerance, h.2.1.linearization, h.2.1.minor, h.2.1.decomp⟩] at h2
      exact Bool.noConfusion h2
    · refine ⟨⟨fun h => h.elim, fun h => ?_⟩, by simp, rfl, by simp⟩
      obtain ⟨l, e1, e2, _⟩ := h.2.1.nodes
      have := hsz l e1
      have h3' : s.size < 0 := h3
      omega
    · refine ⟨⟨fun h => h.elim, fun h => ?_⟩, by simp, rfl, by simp⟩
      rw [hl.mpr ⟨h.2.1.linksInited, h.2.1.linksDistinct⟩] at h4
      exact Bool.noConfusion h4
    · refine ⟨⟨fun h => h.elim, fun h => ?_⟩, by simp, rfl, by simp⟩
      rw [hno.mpr h.2.1.nodes] at h5
      exact Bool.noConfusion h5
    · have h6' : s.orchestrator = false := by simpa using h6
      refine ⟨⟨fun h => h.elim, fun h => ?_⟩, by simp, rfl, fun _ => h6'⟩
      rw [h.2.2] at h6'; exact Bool.noConfusion h6'
    · refine ⟨⟨fun h => h.elim, fun h => ?_⟩, by simp, rfl, by simp⟩
      exact (h.2.1.linksSome (List.length_eq_zero_iff.mp (by omega))).elim
    · have k := hk.mp (by simpa using h2)
      have kl := hl.mp (by simpa using h4)
      refine ⟨⟨fun _ => ⟨rfl, ⟨by simpa using h1, k.1, k.2.1, k.2.2.1, k.2.2.2, kl.1, ?_, kl.2,
        hno.mp (by simpa using h5)⟩, by simpa using h6⟩, fun _ => rfl⟩, by simp, rfl, by simp⟩
      rintro rfl
      exact h7 (by simp)
  · rw [if_pos rfl]
    exact ⟨by simp, by simp, by simp, by simp⟩

theorem run_attempted (c : Call K) {s : Net} (h : s.attempted = true) : (c.run s).1.attempted = true := by
  cases c with
  | nodes l => show (initializeNodes l s).1.attempted = true; unfold initializeNodes; split_ifs <;> exact h
  | orchestrator b => exact h
  | init c links => exact (c18_init c links s).2.2.1
  | restart g => show (Init.restart g s).1.attempted = true; unfold Init.restart; dsimp only; split_ifs <;> exact h
  | step => show (Init.step s).1.attempted = true; unfold Init.step; split_ifs <;> exact h

theorem after_attempted (cs : List (Call K)) {s : Net} (h : s.attempted = true) :
    (after cs s).attempted = true := by
  induction cs generalizing s with
  | nil => exact h
  | cons c cs ih => exact ih (run_attempted c h)

/-- C18: a second attempt is refused, whatever happened in between, whether or not the first attempt
succeeded; and it leaves the network not initialised. -/
theorem c18_once (cs : List (Call K)) (c c' : Config K) (links links' : List LinkRef) (s : Net) :
    (initialize' c' links' (after cs (initialize' c links s).1)).2 = .exception ∧
    (initialize' c' links' (after cs (initialize' c links s).1)).1.flag = false := by
  have h := after_attempted cs (c18_init c links s).2.2.1
  unfold initialize'
  dsimp only
  rw [if_pos (by exact h)]
  exact ⟨rfl, rfl⟩

/-- The call is not a restart. -/
def notRestart : Call K → Bool
  | .restart _ => false
  | _ => true

/-- C18 (partial): full statement: `step` proceeds only on a network whose initialisation succeeded.
True for histories in which `restart` is not called before: if `step` is not refused, there was an
initialisation attempt in the history which succeeded on a proper network, and none after it. -/
theorem c18_step_partial (cs : List (Call K)) (h : ∀ c ∈ cs, notRestart c = true)
    (hs : (Init.step (after cs fresh)).2 = .ok) :
    ∃ pre post c links, cs = pre ++ .init c links :: post ∧
      (initialize' c links (after pre fresh)).2 = .ok ∧ Proper c links (after pre fresh) ∧
      (∀ x ∈ post, ∀ c' l', x ≠ .init c' l') := by
  have gen : ∀ (cs : List (Call K)) (s : Net), (∀ c ∈ cs, notRestart c = true) →
      (after cs s).flag = true → (s.flag = true ∧ ∀ x ∈ cs, ∀ c' l', x ≠ .init c' l') ∨
      ∃ pre post c links, cs = pre ++ .init c links :: post ∧
        (initialize' c links (after pre s)).2 = .ok ∧ (∀ x ∈ post, ∀ c' l', x ≠ .init c' l') := by
    intro cs
    induction cs with
    | nil => intro s _ hf; exact Or.inl ⟨hf, by simp⟩
    | cons x xs ih =>
      intro s hr hf
      have hx := hr x List.mem_cons_self
      rcases ih (x.run s).1 (fun c hc => hr c (List.mem_cons_of_mem _ hc)) hf with h1 | h1
      · cases x with
        | nodes l =>
          left
          refine ⟨?_, ?_⟩
          · have : (initializeNodes l s).1.flag = true := h1.1
            unfold initializeNodes at this
            split_ifs at this <;> exact this
          · intro y hy
            rcases List.mem_cons.mp hy with rfl | hy
            · intro c' l' h; cases h
            · exact h1.2 y hy
        | orchestrator b =>
          left
          refine ⟨h1.1, ?_⟩
          intro y hy
          rcases List.mem_cons.mp hy with rfl | hy
          · intro c' l' h; cases h
          · exact h1.2 y hy
        | init c links =>
          right
          exact ⟨[], xs, c, links, rfl, (c18_init c links s).2.1.mp h1.1, h1.2⟩
        | restart g => exact Bool.noConfusion hx
        | step =>
          left
          refine ⟨?_, ?_⟩
          · have : (Init.step s).1.flag = true := h1.1
            unfold Init.step at this
            split_ifs at this <;> exact this
          · intro y hy
            rcases List.mem_cons.mp hy with rfl | hy
            · intro c' l' h; cases h
            · exact h1.2 y hy
      · obtain ⟨pre, post, c, links, e, h2, h3⟩ := h1
        right
        exact ⟨x :: pre, post, c, links, by rw [e]; rfl, h2, h3⟩
  have hf : (after cs fresh).flag = true := by
    unfold Init.step at hs
    split_ifs at hs with hf
    exact hf
  rcases gen cs fresh h hf with h1 | ⟨pre, post, c, links, e, h2, h3⟩
  · exact Bool.noConfusion h1.1
  · exact ⟨pre, post, c, links, e, h2, ((c18_init c links _).1.mp h2).2.1, h3⟩

/-- C18: after a successful initialisation and no further attempt, steps proceed until a restart
fails. -/
theorem c18_step_ok (cs : List (Call K)) (h : ∀ x ∈ cs, x = .step ∨ x = .restart true)
    (c : Config K) (links : List LinkRef) (s : Net) (hi : (initialize' c links s).2 = .ok) :
    (Init.step (after cs (initialize' c links s).1)).2 = .ok := by
  have gen : ∀ (cs : List (Call K)) (t : Net), (∀ x ∈ cs, x = .step ∨ x = .restart true) →
      t.flag = true → t.numNodes ≠ 0 → (after cs t).flag = true := by
    intro cs
    induction cs with
    | nil => intro t _ hf _; exact hf
    | cons x xs ih =>
      intro t hx hf hn
      rcases hx x List.mem_cons_self with rfl | rfl
      · refine ih t (fun y hy => hx y (List.mem_cons_of_mem _ hy)) hf hn |> fun k => ?_
        show (after xs (Init.step t).1).flag = true
        unfold Init.step
        rw [if_pos hf]; exact k
      · show (after xs (Init.restart true t).1).flag = true
        have : (Init.restart true t).1 = { t with flag := true } := by
          unfold Init.restart
          dsimp only
          rw [if_neg (by exact hn), if_neg (by simp)]
        rw [this]
        exact ih _ (fun y hy => hx y (List.mem_cons_of_mem _ hy)) rfl hn
  have hf := (c18_init c links s).2.1.mpr hi
  have hn : (initialize' c links s).1.numNodes ≠ 0 := by
    obtain ⟨l, h1, h2, _⟩ := ((c18_init c links s).1.mp hi).2.1.nodes
    have e : (initialize' c links s).1.nodes = s.nodes := by
      unfold initialize'; dsimp only; split_ifs <;> rfl
    unfold Net.numNodes
    rw [e, h1]
    show l.length ≠ 0
    omega
  have := gen cs _ h hf hn
  unfold Init.step
  rw [if_pos this]

/-! ## Concrete cases -/

/-- A sound configuration. -/
def goodConfig : Config ℚ := ⟨false, 1/10, 1/100, 8, 4⟩

/-- Three nodes and two links: initialisation and then a step go through. -/
example : (after [.nodes [true, true, true], .init goodConfig [⟨1, true⟩, ⟨2, true⟩]] fresh).flag = true := by
  decide +kernel

/-- A link registered twice, and a second attempt with the duplicate removed: both refused. -/
example : (after [.nodes [true, true, true], .init goodConfig [⟨1, true⟩, ⟨1, true⟩],
    .init goodConfig [⟨1, true⟩]] fresh).flag = false := by
  decide +kernel

/-- C18 is false of `step` in general: `restart` sets the init flag without looking at whether the
initialisation succeeded or was ever attempted.  After an initialisation that threw because a link is
registered twice, and even with no initialisation at all, `step` is not refused. -/
theorem c18_restart_bypasses :
    (initialize' goodConfig [⟨1, true⟩, ⟨1, true⟩]
      (after [Call.nodes (K := ℚ) [true, true, true]] fresh)).2 = .exception ∧
    (Init.step (after [.nodes [true, true, true], .init goodConfig [⟨1, true⟩, ⟨1, true⟩],
      .restart true] fresh)).2 = .ok ∧
    (Init.step (after [Call.nodes (K := ℚ) [true, true, true], .restart true] fresh)).2 = .ok := by
  decide +kernel

end Gunns.Props
