import Verif.Fluid.NetworkSpec
import Mathlib.Data.List.Perm.Basic
import Mathlib.Data.List.Count
import Mathlib.Data.List.Range
import Mathlib.Algebra.BigOperators.Group.List.Basic

/-!
# Lemmas on flow updates of fluid networks
-/

set_option linter.unusedSectionVars false

namespace Gunns.Fluid
open Gunns.Flow Gunns.Props Finset

variable {K : Type _} [Field K] [LinearOrder K] [IsStrictOrderedRing K]

theorem limit100_pos : (0 : K) < limit100 := mul_pos (by norm_num) dblEps_pos

theorem upd_same (ns : Nat → FNode K) (n : Nat) (f : FNode K → FNode K) : upd ns n f n = f (ns n) := if_pos rfl

theorem upd_other (ns : Nat → FNode K) {n k : Nat} (f : FNode K → FNode K) (h : k ≠ n) : upd ns n f k = ns k := if_neg h

/-! ## Calls made by links -/

theorem compute_calls (th : Thermo K) (c : FLink K) (ns : Nat → FNode K) (n : Nat) :
    computeFlows c ns n = (computeCalls c n).foldl (Collect.run th) (ns n) := by
  unfold computeFlows computeCalls
  split_ifs with h1 h2 h3 h4
  · subst h2; rw [upd_same]; rfl
  · rw [upd_other _ _ h2]; rfl
  · subst h4; rw [upd_same]; rfl
  · rw [upd_other _ _ h4]; rfl
  · rfl

theorem transport_calls (th : Thermo K) (ground : Nat) (c : FLink K) (ns : Nat → FNode K) (n : Nat) :
    transportFlows th ground c ns n = (transportCalls ground c ns n).foldl (Collect.run th) (ns n) := by
  have key : ∀ (a b k : Nat) (rate : K),
      (upd (upd ns a (collectOutflux rate)) b
        (collectInflux th rate ((upd ns a (collectOutflux rate)) k).outflow)) n =
      ((if n = a then [Collect.outflux rate] else []) ++
        (if n = b then [Collect.inflow (ns k).outflow rate] else [])).foldl (Collect.run th) (ns n) := by
    intro a b k rate
    have ho : ((upd ns a (collectOutflux rate)) k).outflow = (ns k).outflow := by
      by_cases hk : k = a
      · subst hk; rw [upd_same]; rfl
      · rw [upd_other _ _ hk]
    rw [ho]
    by_cases hb : n = b
    · subst hb
      rw [upd_same, if_pos rfl]
      by_cases ha : n = a
      · subst ha; rw [upd_same, if_pos rfl]; rfl
      · rw [upd_other _ _ ha, if_neg ha]; rfl
    · rw [upd_other _ _ hb, if_neg hb]
      by_cases ha : n = a
      · subst ha; rw [upd_same, if_pos rfl]; rfl
      · rw [upd_other _ _ ha, if_neg ha]; rfl
  unfold transportFlows transportCalls
  dsimp only
  generalize c.flux * (ns (sourceNode ground c c.flux)).outflow.mweight = rate
  by_cases h1 : limit100 < rate
  · rw [if_pos h1, if_pos h1]; exact key _ _ _ _
  · rw [if_neg h1, if_neg h1]
    by_cases h2 : rate < -limit100
    · rw [if_pos h2, if_pos h2]; exact key _ _ _ _
    · rw [if_neg h2, if_neg h2]; rfl

/-- A flux of zero or above the threshold. -/
theorem computeCalls_eq {c : FLink K} (h : c.flux = 0 ∨ dblEps < |c.flux|) (n : Nat) :
    computeCalls c n = if c.flux ≠ 0 ∧ n = c.src then [.schedule |c.flux|] else [] := by
  unfold computeCalls FLink.src
  have he := dblEps_pos (K := K)
  rcases h with h | h
  · rw [h, if_neg (not_lt.2 he.le), if_neg (by linarith), if_neg (fun c => c.1 rfl)]
  · rcases lt_trichotomy c.flux 0 with h0 | h0 | h0
    · rw [abs_of_neg h0] at h ⊢
      rw [if_neg (by linarith), if_pos (by linarith), if_neg (not_lt.2 h0.le)]
      simp [h0.ne]
    · rw [h0, abs_zero] at h; linarith
    · rw [abs_of_pos h0] at h ⊢
      rw [if_pos h, if_pos h0]
      simp [h0.ne']

/-- The node whose outflow a conductor transports. -/
def FLink.from (ground : Nat) (c : FLink K) : Nat := if c.src = ground then c.dst else c.src

theorem sourceNode_eq {ground : Nat} {c : FLink K} {w : K} (hw : 0 < w) (hf : c.flux ≠ 0) :
    sourceNode ground c (c.flux * w) = c.from ground := by
  unfold sourceNode FLink.from FLink.src FLink.dst
  rcases lt_or_gt_of_ne hf with h | h
  · have h1 : c.flux * w < 0 := mul_neg_of_neg_of_pos h hw
    rw [if_neg (not_lt.2 h.le), if_neg (not_lt.2 h.le)]
    by_cases hg : c.node1 = ground
    · rw [if_pos hg, if_neg (by rintro (x | x); exacts [x.2 hg, absurd x.1 (not_lt.2 h1.le)])]
    · rw [if_neg hg, if_pos (Or.inl ⟨h1, hg⟩)]
  · have h1 : 0 < c.flux * w := mul_pos h hw
    rw [if_pos h, if_pos h]
    by_cases hg : c.node0 = ground
    · rw [if_pos hg, if_pos (Or.inr ⟨h1, hg⟩)]
    · rw [if_neg hg, if_neg (by rintro (x | x); exacts [absurd x.1 (not_lt.2 h1.le), hg x.2])]

theorem transportCalls_zero {ground : Nat} {c : FLink K} (hf : c.flux = 0) (ns : Nat → FNode K) (n : Nat) :
    transportCalls ground c ns n = [] := by
  unfold transportCalls
  have hl := limit100_pos (K := K)
  dsimp only
  rw [hf, zero_mul, if_neg (not_lt.2 hl.le), if_neg (by linarith)]

theorem transportCalls_eq {ground : Nat} {c : FLink K} {ns : Nat → FNode K} (hf : c.flux ≠ 0)
    (hw : 0 < (ns (c.from ground)).outflow.mweight)
    (h : limit100 < |c.flux| * (ns (c.from ground)).outflow.mweight) (n : Nat) :
    transportCalls ground c ns n =
      (if n = c.src then [.outflux (|c.flux| * (ns (c.from ground)).outflow.mweight)] else []) ++
      (if n = c.dst then [.inflow (ns (c.from ground)).outflow (|c.flux| * (ns (c.from ground)).outflow.mweight)] else []) := by
  have hs : sourceNode ground c c.flux = c.from ground := by
    have := sourceNode_eq (ground := ground) (c := c) (w := (1 : K)) one_pos hf
    rwa [mul_one] at this
  have hl := limit100_pos (K := K)
  unfold transportCalls
  dsimp only
  rw [hs, sourceNode_eq hw hf]
  generalize (ns (c.from ground)).outflow = o at *
  unfold FLink.src FLink.dst
  rcases lt_or_gt_of_ne hf with h0 | h0
  · rw [abs_of_neg h0] at h ⊢
    rw [if_neg (not_lt.2 (by nlinarith)), if_pos (by nlinarith), if_neg (not_lt.2 h0.le), if_neg (not_lt.2 h0.le), neg_mul]
  · rw [abs_of_pos h0] at h ⊢
    rw [if_pos h, if_pos h0, if_pos h0]

/-! ## Calls of the orchestrator one after the other -/

theorem execAll_append (th : Thermo K) (dt : K) (fn : FluidNet K) {a : List Event} {ns ms : Nat → FNode K}
    (h : execAll th dt fn a ns = .ok ms) (b : List Event) :
    execAll th dt fn (a ++ b) ns = execAll th dt fn b ms := by
  induction a generalizing ns with
  | nil => cases h; rfl
  | cons e es ih =>
    show (match exec th dt fn ns e with
      | .ok ns => execAll th dt fn (es ++ b) ns
      | .thrown ns => .thrown ns) = _
    have h' : (match exec th dt fn ns e with
      | .ok ns => execAll th dt fn es ns
      | .thrown ns => .thrown ns) = .ok ms := h
    cases hx : exec th dt fn ns e with
    | ok q => rw [hx] at h'; exact ih h'
    | thrown q => rw [hx] at h'; cases h'

theorem called_append (th : Thermo K) (dt : K) (fn : FluidNet K) (n : Nat) {a : List Event} {ns ms : Nat → FNode K}
    (h : execAll th dt fn a ns = .ok ms) (b : List Event) :
    called th dt fn n (a ++ b) ns = called th dt fn n a ns ++ called th dt fn n b ms := by
  induction a generalizing ns with
  | nil => cases h; rfl
  | cons e es ih =>
    have h' : (match exec th dt fn ns e with
      | .ok ns => execAll th dt fn es ns
      | .thrown ns => .thrown ns) = .ok ms := h
    show callsOf fn ns n e ++ (match exec th dt fn ns e with
      | .ok ns => called th dt fn n (es ++ b) ns
      | .thrown _ => []) = (callsOf fn ns n e ++ (match exec th dt fn ns e with
      | .ok ns => called th dt fn n es ns
      | .thrown _ => [])) ++ _
    cases hx : exec th dt fn ns e with
    | ok q => rw [hx] at h'; rw [List.append_assoc]; dsimp only; rw [ih h']
    | thrown q => rw [hx] at h'; cases h'

theorem called_snoc (th : Thermo K) (dt : K) (fn : FluidNet K) (n : Nat) {a : List Event} {ns ms : Nat → FNode K}
    (h : execAll th dt fn a ns = .ok ms) (e : Event) :
    called th dt fn n (a ++ [e]) ns = called th dt fn n a ns ++ callsOf fn ms n e := by
  rw [called_append th dt fn n h]
  congr 1
  show callsOf fn ms n e ++ _ = _
  cases exec th dt fn ms e <;> simp [called]

theorem inflows_append (a b : List (Collect K)) : inflows (a ++ b) = inflows a ++ inflows b := List.filterMap_append

theorem outs_append (a b : List (Collect K)) : outs (a ++ b) = outs a ++ outs b := List.filterMap_append

theorem before_eq {n : Nat} {a b : List Event} (h : Event.integrate n ∉ a) :
    before n (a ++ Event.integrate n :: b) = a := by
  unfold before
  rw [List.takeWhile_append_of_pos]
  · simp
  · intro e he
    exact decide_eq_true (fun c => h (c ▸ he))

/-! ## Sums over links -/

/-- The links transported, in order. -/
def transported (a : List Event) : List Nat := a.filterMap (fun e => match e with | .transport l _ => some l | _ => none)

/-- The links computed, in order. -/
def computed (a : List Event) : List Nat := a.filterMap (fun e => match e with | .compute l => some l | _ => none)

theorem transported_append (a b : List Event) : transported (a ++ b) = transported a ++ transported b :=
  List.filterMap_append

theorem computed_append (a b : List Event) : computed (a ++ b) = computed a ++ computed b := List.filterMap_append

theorem mem_transported {a : List Event} {l : Nat} : l ∈ transported a ↔ ∃ b, Event.transport l b ∈ a := by
  unfold transported
  rw [List.mem_filterMap]
  constructor
  · rintro ⟨e, he, h⟩
    cases e with
    | transport k b => simp only [Option.some.injEq] at h; subst h; exact ⟨b, he⟩
    | compute k => cases h
    | integrate k => cases h
  · rintro ⟨b, hb⟩
    exact ⟨_, hb, rfl⟩

theorem mem_computed {a : List Event} {l : Nat} : l ∈ computed a ↔ Event.compute l ∈ a := by
  unfold computed
  rw [List.mem_filterMap]
  constructor
  · rintro ⟨e, he, h⟩
    cases e with
    | compute k => simp only [Option.some.injEq] at h; subst h; exact he
    | transport k b => cases h
    | integrate k => cases h
  · intro hb
    exact ⟨_, hb, rfl⟩

theorem count_transported (a : List Event) (l : Nat) : (transported a).count l = a.countP (Event.isTransport l) := by
  induction a with
  | nil => rfl
  | cons e a ih =>
    have : transported (e :: a) = transported [e] ++ transported a := transported_append [e] a
    rw [this, List.count_append, ih, List.countP_cons, add_comm]
    congr 1
    cases e with
    | compute k => simp [transported, Event.isTransport]
    | integrate k => simp [transported, Event.isTransport]
    | transport k b =>
      have : transported [Event.transport k b] = [k] := rfl
      rw [this, List.count_singleton]
      by_cases hk : k = l
      · subst hk; cases b <;> simp [Event.isTransport]
      · cases b <;> simp [Event.isTransport, hk]

theorem count_computed (a : List Event) (l : Nat) : (computed a).count l = a.count (Event.compute l) := by
  induction a with
  | nil => rfl
  | cons e a ih =>
    have : computed (e :: a) = computed [e] ++ computed a := computed_append [e] a
    rw [this, List.count_append, ih, List.count_cons, add_comm]
    congr 1
    cases e with
    | transport k b => simp [computed]
    | integrate k => simp [computed]
    | compute k =>
      have : computed [Event.compute k] = [k] := rfl
      rw [this, List.count_singleton]
      by_cases hk : k = l
      · subst hk; simp
      · simp [hk]

theorem sum_of_count {k : Nat} {ls : List Nat} (h : ∀ l, ls.count l = if l < k then 1 else 0) (f : Nat → K) :
    (ls.map f).sum = ∑ l ∈ range k, f l := by
  have hp : ls.Perm (List.range k) := by
    rw [List.perm_iff_count]
    intro l
    rw [h l]
    by_cases hl : l < k
    · rw [if_pos hl]
      exact (List.nodup_range.count.trans (if_pos (List.mem_range.mpr hl))).symm
    · rw [if_neg hl]
      exact (List.count_eq_zero.2 (fun c => hl (List.mem_range.mp c))).symm
  rw [(hp.map f).sum_eq]
  induction k generalizing ls with
  | zero => rfl
  | succ k ih =>
    rw [List.range_succ, List.map_append, List.sum_append, Finset.sum_range_succ,
      ih (ls := List.range k) (fun l => by rw [List.nodup_range.count]; simp) (List.Perm.refl _)]
    simp

theorem sum_zero_of {ls : List Nat} {f : Nat → K} (h : ∀ l ∈ ls, f l = 0) : (ls.map f).sum = 0 := by
  induction ls with
  | nil => rfl
  | cons a ls ih =>
    rw [List.map_cons, List.sum_cons, h a (by simp), ih (fun l hl => h l (by simp [hl])), add_zero]

end Gunns.Fluid
