import Verif.Fluid.ReactorStep
import Mathlib.Tactic.FinCases

/-!
# Lemmas about the set-up of chemical reactors
-/

set_option linter.unusedSectionVars false

namespace Gunns.Fluid

open Finset

variable {K : Type _} [Field K] [LinearOrder K] [IsStrictOrderedRing K]

theorem lastIndex_some {types : List Chem} {t : Chem} {j : Nat} (h : lastIndex types t = some j) :
    types[j]? = some t := by
  have : ∀ r, lastIndex types t = r → ∀ j, r = some j → types[j]? = some t := by
    intro r hr
    rw [← hr]
    unfold lastIndex
    refine loop_inv (fun _ r => ∀ j, r = some j → types[j]? = some t) types.length ?_ ?_
    · intro j hj; cases hj
    · intro k _ r hr j hj
      by_cases hk : types[k]? = some t
      · rw [if_pos hk] at hj
        cases hj
        exact hk
      · rw [if_neg hk] at hj
        exact hr j hj
  exact this _ rfl j h

theorem lastIndex_lt {types : List Chem} {t : Chem} {j : Nat} (h : lastIndex types t = some j) : j < types.length :=
  (List.getElem?_eq_some_iff.1 (lastIndex_some h)).1

theorem lastIndex_isSome {types : List Chem} {t : Chem} (h : t ∈ types) : ∃ j, lastIndex types t = some j := by
  obtain ⟨i, hi⟩ := List.mem_iff_getElem?.1 h
  have hlt : i < types.length := (List.getElem?_eq_some_iff.1 hi).1
  have : ∃ j, lastIndex types t = some j := by
    unfold lastIndex
    have key := loop_inv (f := fun j (r : Option Nat) => if types[j]? = some t then some j else r) (s := none)
      (fun k r => i < k → ∃ j, r = some j) types.length (by intro h; omega)
      (by
        intro k _ r hr hik
        by_cases hk : types[k]? = some t
        · rw [if_pos hk]; exact ⟨k, rfl⟩
        · rw [if_neg hk]
          refine hr ?_
          rcases Nat.lt_succ_iff_lt_or_eq.1 hik with h | h
          · exact h
          · rw [h] at hi; exact absurd hi hk)
    exact key hlt
  exact this

/-- What `deriveReaction` gives. -/
theorem deriveReaction_some {types : List Chem} {net : List (Option Chem)} {u v : K} {d : ReactionDef K} {r : Reaction K}
    (h : deriveReaction types net u v d = some r) :
    types[r.reactant]? = some d.reactant ∧ types[r.reagent]? = some d.reagent ∧ types[r.product1]? = some d.product1 ∧
    (∀ t, d.product2 = some t → ∃ p, r.product2 = some p ∧ types[p]? = some t) ∧
    (d.product2 = none → r.product2 = none) ∧
    r.nReactant = d.nReactant ∧ r.nReagent = d.nReagent ∧ r.nProduct1 = d.nProduct1 ∧ r.nProduct2 = d.nProduct2 ∧
    r.efficiency = d.efficiency ∧ r.heat = d.heat ∧ r.userReactant = u ∧ r.userReagent = v := by
  unfold deriveReaction at h
  by_cases hc : (checkCompound types net d.reactant && checkCompound types net d.reagent &&
      checkCompound types net d.product1 && d.product2.all (checkCompound types net)) = true
  · rw [if_pos hc] at h
    simp only [Bool.and_eq_true] at hc
    cases ha : lastIndex types d.reactant with
    | none => rw [ha] at h; cases h
    | some a =>
      cases hb : lastIndex types d.reagent with
      | none => rw [ha, hb] at h; cases h
      | some b =>
        cases hp : lastIndex types d.product1 with
        | none => rw [ha, hb, hp] at h; cases h
        | some c =>
          rw [ha, hb, hp] at h
          cases h
          refine ⟨lastIndex_some ha, lastIndex_some hb, lastIndex_some hp, ?_, ?_, rfl, rfl, rfl, rfl, rfl, rfl, rfl, rfl⟩
          · intro t ht
            have h2 := hc.2
            rw [ht] at h2
            simp only [Option.all_some, checkCompound, Bool.and_eq_true, List.contains_iff_mem] at h2
            obtain ⟨p, hp⟩ := lastIndex_isSome h2.1
            exact ⟨p, by rw [ht]; exact hp, lastIndex_some hp⟩
          · intro ht
            show d.product2.bind _ = none
            rw [ht]; rfl
  · rw [if_neg hc] at h
    cases h

/-- A table entry that makes sense. -/
structure SoundEntry (d : ReactionDef K) : Prop where
  distinct : d.reactant ≠ d.reagent
  nReactant : 0 < d.nReactant
  nReagent : 0 < d.nReagent
  nProduct1 : 0 < d.nProduct1
  nProduct2 : 0 ≤ d.nProduct2
  efficiency : 0 ≤ d.efficiency

/-- Atoms of an element that a reaction of the table makes, less those it uses. -/
def atomDefect (d : ReactionDef K) (e : Element) : K :=
  d.nProduct1 * (d.product1.atoms e : K) + (match d.product2 with | some p => d.nProduct2 * (p.atoms e : K) | none => 0) -
    d.nReactant * (d.reactant.atoms e : K) - d.nReagent * (d.reagent.atoms e : K)

theorem defined_sound : ∀ d ∈ (definedReactions : List (ReactionDef K)), SoundEntry d := by
  intro d hd
  simp only [definedReactions, List.mem_cons, List.not_mem_nil, or_false] at hd
  rcases hd with h | h | h | h | h | h | h <;> subst h <;>
    exact ⟨(fun h => by cases h), by norm_num, by norm_num, by norm_num, by norm_num, by norm_num⟩

theorem defined_atoms : ∀ d ∈ (definedReactions : List (ReactionDef K)), ∀ e, atomDefect d e = 0 := by
  intro d hd e
  simp only [definedReactions, List.mem_cons, List.not_mem_nil, or_false] at hd
  rcases hd with h | h | h | h | h | h | h <;> subst h <;> cases e <;>
    simp only [atomDefect, Chem.atoms] <;> norm_num

theorem proper_of_entry {types : List Chem} {net : List (Option Chem)} {u v : K} {d : ReactionDef K} {r : Reaction K}
    (hd : SoundEntry d) (h : deriveReaction types net u v d = some r) : ProperReaction types.length r := by
  obtain ⟨h1, h2, h3, h4, h5, h6, h7, h8, h9, -⟩ := deriveReaction_some h
  refine ⟨(List.getElem?_eq_some_iff.1 h1).1, (List.getElem?_eq_some_iff.1 h2).1, (List.getElem?_eq_some_iff.1 h3).1,
    ?_, ?_, by rw [h6]; exact hd.nReactant, by rw [h7]; exact hd.nReagent, by rw [h8]; exact hd.nProduct1.le,
    by rw [h9]; exact hd.nProduct2⟩
  · intro p hp
    cases hq : d.product2 with
    | none => rw [h5 hq] at hp; cases hp
    | some t =>
      obtain ⟨p', hp', ht⟩ := h4 t hq
      rw [hp] at hp'
      cases hp'
      exact (List.getElem?_eq_some_iff.1 ht).1
  · intro e
    rw [e, h2] at h1
    exact hd.distinct (Option.some.inj h1).symm

/-- A quantity per mole of each configured compound. -/
def perMole (types : List Chem) (f : Chem → K) (k : Nat) : K :=
  match types[k]? with
  | some t => f t
  | none => 0

theorem sum_single {n j : Nat} {q : K} {a : Nat → K} (hj : j < n) :
    ∑ k ∈ range n, (if k = j then q else 0) * a k = q * a j := by
  rw [Finset.sum_eq_single j]
  · rw [if_pos rfl]
  · intro k _ hk; rw [if_neg hk, zero_mul]
  · intro h; exact absurd (mem_range.2 hj) h

/-- The sum of a quantity over the moles of a reaction. -/
theorem sum_stoich {n : Nat} {r : Reaction K} (hr : ProperReaction n r) (a : Nat → K) :
    ∑ k ∈ range n, stoich r k * a k =
      r.nProduct1 * a r.product1 + (match r.product2 with | some p => r.nProduct2 * a p | none => 0) -
        r.nReactant * a r.reactant - r.nReagent * a r.reagent := by
  unfold stoich
  simp only [sub_mul, add_mul, Finset.sum_sub_distrib, Finset.sum_add_distrib]
  rw [sum_single hr.product1, sum_single hr.reactant, sum_single hr.reagent]
  cases hp : r.product2 with
  | none => simp
  | some p =>
    have : ∀ k, (if some p = some k then r.nProduct2 else 0) = if k = p then r.nProduct2 else 0 := by
      intro k
      by_cases e : k = p
      · rw [if_pos e, if_pos (by rw [e])]
      · rw [if_neg e, if_neg (fun h => e (Option.some.inj h).symm)]
    simp only [this]
    rw [sum_single (hr.product2 p hp)]

theorem derived_balances {types : List Chem} {net : List (Option Chem)} {u v : K} {d : ReactionDef K} {r : Reaction K}
    (hd : SoundEntry d) (h : deriveReaction types net u v d = some r) (e : Element) (ha : atomDefect d e = 0) :
    Balances types.length (perMole types (fun t => (t.atoms e : K))) r := by
  have hr := proper_of_entry hd h
  obtain ⟨h1, h2, h3, h4, h5, h6, h7, h8, h9, -⟩ := deriveReaction_some h
  unfold Balances
  rw [sum_stoich hr]
  refine Eq.trans ?_ ha
  unfold atomDefect perMole
  rw [h1, h2, h3, h6, h7, h8, h9]
  cases hq : d.product2 with
  | none => simp only [h5 hq]
  | some t =>
    obtain ⟨p, hp, ht⟩ := h4 t hq
    rw [hp]
    simp only [ht]

end Gunns.Fluid
