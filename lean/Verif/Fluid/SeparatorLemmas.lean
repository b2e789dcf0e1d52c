import Verif.Fluid.SeparatorSpec
import Verif.Fluid.NodeLemmas

/-!
# Lemmas about the separator
-/

set_option linter.unusedSectionVars false

namespace Gunns.Fluid

open Finset

variable {K : Type _} [Field K] [LinearOrder K] [IsStrictOrderedRing K]

/-- What `step` and `computeFlows` leave alone. -/
structure SepFrame (s t : Separator K) : Prop where
  ports : t.ports = s.ports
  types : t.types = s.types
  index : t.index = s.index
  port : t.port = s.port
  fraction : t.fraction = s.fraction
  fluid : t.fluid = s.fluid
  internal : t.internal = s.internal

theorem SepFrame.trans {s t u : Separator K} (h : SepFrame s t) (g : SepFrame t u) : SepFrame s u :=
  ⟨g.ports.trans h.ports, g.types.trans h.types, g.index.trans h.index, g.port.trans h.port,
    g.fraction.trans h.fraction, g.fluid.trans h.fluid, g.internal.trans h.internal⟩

theorem step_frame (p0 p1 : K) (s : Separator K) :
    SepFrame s (stepSep p0 p1 s) ∧ (stepSep p0 p1 s).thru = s.thru ∧ (stepSep p0 p1 s).flux = s.flux ∧
      ∀ k, (stepSep p0 p1 s).exit k = if k < s.types then s.thru k else s.exit k := by
  unfold stepSep
  refine loop_inv (fun j (t : Separator K) => SepFrame s t ∧ t.thru = s.thru ∧ t.flux = s.flux ∧
    ∀ k, t.exit k = if k < j then s.thru k else s.exit k) _ ?_ ?_
  · exact ⟨⟨rfl, rfl, rfl, rfl, rfl, rfl, rfl⟩, rfl, rfl, fun k => by simp⟩
  · rintro j - t ⟨h1, h2, h3, h4⟩
    refine ⟨⟨h1.1, h1.2, h1.3, h1.4, h1.5, h1.6, h1.7⟩, h2, h3, fun k => ?_⟩
    show Function.update t.exit j (t.thru j) k = _
    by_cases e : k = j
    · rw [e, Function.update_self, if_pos (Nat.lt_succ_self j), h2]
    · rw [Function.update_of_ne e, h4]
      have : k < j + 1 ↔ k < j := by omega
      simp only [this]

theorem compute_frame (flux : K) (x : Nat → K) (s : Separator K) :
    SepFrame s (computeSep flux x s) ∧ (computeSep flux x s).exit = s.exit ∧
      (computeSep flux x s).source = s.source ∧ (computeSep flux x s).flux = flux ∧
      ∀ k, (computeSep flux x s).thru k = if k < s.types then s.fraction k * |flux| * x (s.index k) else s.thru k := by
  unfold computeSep
  refine loop_inv (fun j (t : Separator K) => SepFrame s t ∧ t.exit = s.exit ∧ t.source = s.source ∧ t.flux = flux ∧
    ∀ k, t.thru k = if k < j then s.fraction k * |flux| * x (s.index k) else s.thru k) _ ?_ ?_
  · exact ⟨⟨rfl, rfl, rfl, rfl, rfl, rfl, rfl⟩, rfl, rfl, rfl, fun k => by simp⟩
  · rintro j - t ⟨h1, h2, h3, h4, h5⟩
    refine ⟨⟨h1.1, h1.2, h1.3, h1.4, h1.5, h1.6, h1.7⟩, h2, h3, h4, fun k => ?_⟩
    show Function.update t.thru j _ k = _
    by_cases e : k = j
    · rw [e, Function.update_self, if_pos (Nat.lt_succ_self j), h1.fraction, h1.index, h4]
    · rw [Function.update_of_ne e, h5]
      have : k < j + 1 ↔ k < j := by omega
      simp only [this]

theorem exitFlux_eq (s : Separator K) : exitFlux s = |s.flux| - ∑ k ∈ range s.types, s.thru k := by
  unfold exitFlux
  refine loop_inv (fun j (e : K) => e = |s.flux| - ∑ k ∈ range j, s.thru k) _ ?_ ?_
  · simp
  · rintro j - e h
    rw [Finset.sum_range_succ, h]; ring

theorem leftMoles_eq (p : Poly K) (s : Separator K) (i : Nat) :
    leftMoles p s i = |s.flux| * (p.parts i).moleFraction - heldFor s s.thru i := by
  unfold leftMoles heldFor
  refine (loop_inv (fun j (w : Nat → K) => ∀ i, w i = |s.flux| * (p.parts i).moleFraction -
    ∑ k ∈ range j, if s.index k = i then s.thru k else 0) _ ?_ ?_) i
  · intro i; simp
  · intro j _ w h i
    rw [Finset.sum_range_succ]
    by_cases e : s.index j = i
    · rw [if_pos e, e, Function.update_self, h]; ring
    · rw [if_neg e, Function.update_of_ne (fun c => e c.symm), h]; ring

theorem sum_held {n : Nat} (s : Separator K) (v : Nat → K) (h : ∀ k, k < s.types → s.index k < n) :
    ∑ i ∈ range n, heldFor s v i = ∑ k ∈ range s.types, v k := by
  unfold heldFor
  rw [Finset.sum_comm]
  refine Finset.sum_congr rfl (fun k hk => ?_)
  rw [Finset.sum_eq_single (s.index k)]
  · rw [if_pos rfl]
  · intro i _ hi; rw [if_neg (fun c => hi c.symm)]
  · intro c; exact absurd (mem_range.2 (h k (mem_range.1 hk))) c

theorem given_append (a b : List (Nat × Collect K)) (p i : Nat) :
    givenMoles (a ++ b) p i = givenMoles a p i + givenMoles b p i := by
  unfold givenMoles; rw [List.map_append, List.sum_append]

theorem taken_append (o : Poly K) (a b : List (Nat × Collect K)) (p i : Nat) :
    takenMoles o (a ++ b) p i = takenMoles o a p i + takenMoles o b p i := by
  unfold takenMoles; rw [List.map_append, List.sum_append]

/-- The flows to the exits. -/
theorem exitCalls_given {th : Thermo K} {t : K} {s : Separator K} (p i : Nat) :
    givenMoles (exitCalls th t s) p i =
      (if 2 ≤ p ∧ p - 2 < s.ports - 2 ∧ dblEps < s.exit (p - 2) * (s.fluid (p - 2)).mweight then
        s.exit (p - 2) * (s.fluid (p - 2)).mweight *
          ((setTemperature th t (s.fluid (p - 2))).parts i).massFraction / (s.fluid (p - 2)).mw i else 0) := by
  unfold exitCalls
  refine loop_inv (fun j (cs : List (Nat × Collect K)) => givenMoles cs p i =
    (if 2 ≤ p ∧ p - 2 < j ∧ dblEps < s.exit (p - 2) * (s.fluid (p - 2)).mweight then
        s.exit (p - 2) * (s.fluid (p - 2)).mweight *
          ((setTemperature th t (s.fluid (p - 2))).parts i).massFraction / (s.fluid (p - 2)).mw i else 0)) _ ?_ ?_
  · rw [if_neg (by omega)]; rfl
  · intro j _ cs h
    show givenMoles (if dblEps < s.exit j * (s.fluid j).mweight then _ else cs) p i = _
    by_cases hm : dblEps < s.exit j * (s.fluid j).mweight
    · rw [if_pos hm, given_append, h]
      by_cases e : p = j + 2
      · subst e
        rw [if_neg (fun c => by have := c.2.1; omega), if_pos ⟨by omega, by omega, by
          rw [show j + 2 - 2 = j by omega]; exact hm⟩, zero_add]
        simp [givenMoles]
        rfl
      · have hz : givenMoles [(j + 2, Collect.inflow (setTemperature th t (s.fluid j))
            (s.exit j * (setTemperature th t (s.fluid j)).mweight))] p i = 0 := by
          simp only [givenMoles, List.map_cons, List.map_nil, List.sum_cons, List.sum_nil]
          rw [if_neg (fun c => e c.symm), add_zero]
        rw [hz, add_zero]
        have : (2 ≤ p ∧ p - 2 < j + 1) ↔ (2 ≤ p ∧ p - 2 < j) := by omega
        simp only [← and_assoc, this]
    · rw [if_neg hm, h]
      by_cases e : p = j + 2
      · subst e
        rw [if_neg (fun c => by have := c.2.1; omega), if_neg (fun c => hm (by
          have := c.2.2; rw [show j + 2 - 2 = j by omega] at this; exact this))]
      · have : (2 ≤ p ∧ p - 2 < j + 1) ↔ (2 ≤ p ∧ p - 2 < j) := by omega
        simp only [← and_assoc, this]

theorem exitCalls_taken {th : Thermo K} {t : K} {s : Separator K} (o : Poly K) (p i : Nat) :
    takenMoles o (exitCalls th t s) p i = 0 := by
  unfold exitCalls
  refine loop_inv (fun _ (cs : List (Nat × Collect K)) => takenMoles o cs p i = 0) _ rfl ?_
  intro j _ cs h
  show takenMoles o (if dblEps < s.exit j * (s.fluid j).mweight then _ else cs) p i = _
  by_cases hm : dblEps < s.exit j * (s.fluid j).mweight
  · rw [if_pos hm, taken_append, h, zero_add]
    simp [takenMoles]
  · rw [if_neg hm, h]

/-- The exit of a pure fluid. -/
theorem exitCalls_pure {c : Poly K} {th : Thermo K} {t : K} {s : Separator K} (hw : GoodWeights c) {k i : Nat}
    (hk : k < s.ports - 2) (hf : SameFluids c (s.fluid k)) (hp : Pure (s.fluid k) (s.index k)) (hi : i < c.n) :
    givenMoles (exitCalls th t s) (k + 2) i =
      if s.index k = i ∧ dblEps < s.exit k * (s.fluid k).mweight then s.exit k else 0 := by
  rw [exitCalls_given]
  have e2 : k + 2 - 2 = k := by omega
  rw [e2]
  have hi' : i < (s.fluid k).n := by rw [← hf.1]; exact hi
  have hfr : ((setTemperature th t (s.fluid k)).parts i).massFraction = ((s.fluid k).parts i).massFraction :=
    ((sameMix_setTemperature th t (s.fluid k)).parts i hi').1
  by_cases hm : dblEps < s.exit k * (s.fluid k).mweight
  · rw [if_pos ⟨by omega, hk, hm⟩, hfr, hp.fractions i hi']
    by_cases e : i = s.index k
    · rw [if_pos e, if_pos ⟨e.symm, hm⟩, hp.weight, ← e, mul_one]
      have : (s.fluid k).mw i ≠ 0 := by
        rw [← (hf.2 i hi).2]; exact (hw.pos hi).ne'
      field_simp
    · rw [if_neg e, if_neg (fun c => e c.1.symm), mul_zero, zero_div]
  · rw [if_neg (fun c => hm c.2.2), if_neg (fun c => hm c.2)]

end Gunns.Fluid
