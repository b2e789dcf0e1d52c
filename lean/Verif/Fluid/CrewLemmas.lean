import Verif.Fluid.Crew
import Verif.Fluid.PolyFluidLemmas
import Mathlib.Tactic.Ring

/-!
# Lemmas about an internal fluid filled with given flows

What `resetState`, `setMass` of some constituents and `updateMass` leave in a `PolyFluid`, as the metabolic links and the fire source
call them.
-/

namespace Gunns.Crew

open Gunns Gunns.Fluid
open Finset

set_option linter.unusedSectionVars false

variable {K : Type*} [Field K] [LinearOrder K] [IsStrictOrderedRing K]

theorem fill_n (xs : List (Nat × K)) (p : Poly K) : (fill xs p).n = p.n := by
  unfold fill
  induction xs generalizing p with
  | nil => rfl
  | cons e t ih =>
    rw [List.foldl_cons, ih]
    unfold setPartMass
    split <;> rfl

theorem set_mass (k : Nat) (m : K) (p : Poly K) (hk : k < p.n) (i : Nat) :
    (((setPartMass (k : Int) m p).state).parts i).mass = if i = k then m else (p.parts i).mass := by
  unfold setPartMass
  have h : ¬((k : Int) < 0 ∨ (p.n : Int) ≤ (k : Int)) := by omega
  rw [if_neg h]
  simp only [Res.state, Int.toNat_natCast]
  split <;> simp [Part.setMass]

theorem set_n (k : Nat) (m : K) (p : Poly K) : ((setPartMass (k : Int) m p).state).n = p.n := by
  unfold setPartMass
  split <;> rfl

theorem fill_mass_out (xs : List (Nat × K)) (p : Poly K) (hk : ∀ e ∈ xs, e.1 < p.n) (i : Nat)
    (hi : i ∉ xs.map Prod.fst) : ((fill xs p).parts i).mass = (p.parts i).mass := by
  unfold fill
  induction xs generalizing p with
  | nil => rfl
  | cons e t ih =>
    rw [List.foldl_cons]
    simp only [List.map_cons, List.mem_cons, not_or] at hi
    rw [ih _ (fun f hf => by rw [set_n]; exact hk f (List.mem_cons_of_mem _ hf)) hi.2,
      set_mass _ _ _ (hk e List.mem_cons_self), if_neg hi.1]

theorem fill_mass_in (xs : List (Nat × K)) (p : Poly K) (hk : ∀ e ∈ xs, e.1 < p.n) (hd : (xs.map Prod.fst).Nodup)
    (e : Nat × K) (he : e ∈ xs) : ((fill xs p).parts e.1).mass = e.2 := by
  induction xs generalizing p with
  | nil => cases he
  | cons f t ih =>
    simp only [List.map_cons, List.nodup_cons] at hd
    have hk' : ∀ g ∈ t, g.1 < ((setPartMass (f.1 : Int) f.2 p).state).n := fun g hg => by
      rw [set_n]; exact hk g (List.mem_cons_of_mem _ hg)
    have hs : fill (f :: t) p = fill t ((setPartMass (f.1 : Int) f.2 p).state) := rfl
    rw [hs]
    rcases List.mem_cons.1 he with h | h
    · subst h
      rw [fill_mass_out t _ hk' _ hd.1, set_mass _ _ _ (hk e List.mem_cons_self), if_pos rfl]
    · exact ih _ hk' hd.2 h

theorem fill_sum (xs : List (Nat × K)) (p : Poly K) (hk : ∀ e ∈ xs, e.1 < p.n) (hd : (xs.map Prod.fst).Nodup) (w : Nat → K) :
    ∑ i ∈ range p.n, ((fill xs p).parts i).mass * w i
      = ∑ i ∈ range p.n, (p.parts i).mass * w i + (xs.map (fun e => (e.2 - (p.parts e.1).mass) * w e.1)).sum := by
  induction xs generalizing p with
  | nil => simp [fill]
  | cons f t ih =>
    simp only [List.map_cons, List.nodup_cons] at hd
    have hf : f.1 < p.n := hk f List.mem_cons_self
    have hk' : ∀ g ∈ t, g.1 < ((setPartMass (f.1 : Int) f.2 p).state).n := fun g hg => by
      rw [set_n]; exact hk g (List.mem_cons_of_mem _ hg)
    have hs : fill (f :: t) p = fill t ((setPartMass (f.1 : Int) f.2 p).state) := rfl
    have h1 := ih _ hk' hd.2
    rw [set_n] at h1
    rw [hs, h1]
    have h2 : ∑ i ∈ range p.n, (((setPartMass (f.1 : Int) f.2 p).state).parts i).mass * w i
        = ∑ i ∈ range p.n, (p.parts i).mass * w i + (f.2 - (p.parts f.1).mass) * w f.1 := by
      have : ∀ i, (((setPartMass (f.1 : Int) f.2 p).state).parts i).mass * w i
          = (p.parts i).mass * w i + (if i = f.1 then (f.2 - (p.parts f.1).mass) * w f.1 else 0) := by
        intro i
        rw [set_mass _ _ _ hf]
        by_cases h : i = f.1
        · subst h; rw [if_pos rfl, if_pos rfl]; ring
        · rw [if_neg h, if_neg h]; ring
      simp only [this, sum_add_distrib]
      rw [sum_ite_eq' (range p.n) f.1, if_pos (mem_range.2 hf)]
    have h3 : (t.map (fun e => (e.2 - (((setPartMass (f.1 : Int) f.2 p).state).parts e.1).mass) * w e.1))
        = t.map (fun e => (e.2 - (p.parts e.1).mass) * w e.1) := by
      apply List.map_congr_left
      intro e he
      have : e.1 ≠ f.1 := fun h => hd.1 (h ▸ List.mem_map_of_mem he)
      rw [set_mass _ _ _ hf, if_neg this]
    rw [h2, h3]
    simp only [List.map_cons, List.sum_cons]
    ring

theorem reset_mass (p : Poly K) (i : Nat) (hi : i < p.n) : ((resetState p).parts i).mass = 0 := by
  unfold resetState Poly.each
  simp only
  rw [if_pos hi]

theorem fill_mw (xs : List (Nat × K)) (p : Poly K) : (fill xs p).mw = p.mw := by
  unfold fill
  induction xs generalizing p with
  | nil => rfl
  | cons e t ih =>
    rw [List.foldl_cons, ih]
    unfold setPartMass
    split <;> rfl

/-- A fluid filled with flows whose sum is not small: the mass fractions, the moles and the molecular weight. -/
theorem filled (xs : List (Nat × K)) (p : Poly K) (hk : ∀ e ∈ xs, e.1 < p.n) (hd : (xs.map Prod.fst).Nodup)
    (hs : dblEps ≤ |(xs.map Prod.snd).sum|) :
    (∀ e ∈ xs, ((updateMass (fill xs (resetState p))).parts e.1).massFraction = e.2 / (xs.map Prod.snd).sum) ∧
      (∀ i, i < p.n → i ∉ xs.map Prod.fst → ((updateMass (fill xs (resetState p))).parts i).massFraction = 0) ∧
      (updateMass (fill xs (resetState p))).mole = innerLimit dblEps ((xs.map (fun e => e.2 / p.mw e.1)).sum) ∧
      (updateMass (fill xs (resetState p))).mweight
        = (xs.map Prod.snd).sum / innerLimit dblEps ((xs.map (fun e => e.2 / p.mw e.1)).sum) ∧
      (updateMass (fill xs (resetState p))).n = p.n ∧ (updateMass (fill xs (resetState p))).mw = p.mw := by
  have hr : (resetState p).n = p.n := rfl
  have hrm : (resetState p).mw = p.mw := rfl
  have hk' : ∀ e ∈ xs, e.1 < (resetState p).n := hk
  have hsum : ∀ w : Nat → K, ∑ i ∈ range p.n, ((fill xs (resetState p)).parts i).mass * w i
      = (xs.map (fun e => e.2 * w e.1)).sum := by
    intro w
    have h1 := fill_sum xs (resetState p) hk' hd w
    rw [hr] at h1
    rw [h1]
    have h2 : ∑ i ∈ range p.n, ((resetState p).parts i).mass * w i = 0 := by
      apply sum_eq_zero
      intro i hi
      rw [reset_mass _ _ (mem_range.1 hi), zero_mul]
    rw [h2, zero_add]
    congr 1
    apply List.map_congr_left
    intro e he
    rw [reset_mass _ _ (hk e he), sub_zero]
  have hmass : total p.n (fun i => ((fill xs (resetState p)).parts i).mass) = (xs.map Prod.snd).sum := by
    rw [total_eq_sum]
    have h1 := hsum (fun _ => 1)
    simp only [mul_one] at h1
    exact h1
  have hmol : total p.n (fun i => ((fill xs (resetState p)).parts i).mass / p.mw i)
      = (xs.map (fun e => e.2 / p.mw e.1)).sum := by
    rw [total_eq_sum]
    have h1 := hsum (fun i => (p.mw i)⁻¹)
    simp only [← div_eq_mul_inv] at h1
    exact h1
  have hfn : (fill xs (resetState p)).n = p.n := by rw [fill_n, hr]
  have hfm : (fill xs (resetState p)).mw = p.mw := by rw [fill_mw, hrm]
  have hinner : innerLimit dblEps ((xs.map Prod.snd).sum) = (xs.map Prod.snd).sum := innerLimit_of_abs_ge hs
  have hfrac : ∀ i, i < p.n → ((updateMass (fill xs (resetState p))).parts i).massFraction
      = ((fill xs (resetState p)).parts i).mass / (xs.map Prod.snd).sum := by
    intro i hi
    unfold updateMass Poly.each
    simp only [hfn]
    rw [if_pos hi, hmass, hinner]
  refine ⟨?_, ?_, ?_, ?_, ?_, ?_⟩
  · intro e he
    rw [hfrac _ (hk e he), fill_mass_in xs _ hk' hd e he]
  · intro i hi hno
    rw [hfrac _ hi, fill_mass_out xs _ hk' i hno, reset_mass _ _ hi, zero_div]
  · unfold updateMass Poly.each
    simp only [hfn, hfm]
    rw [hmol]
  · unfold updateMass Poly.each
    simp only [hfn, hfm]
    rw [hmass, hmol, hinner]
  · unfold updateMass Poly.each
    exact hfn
  · unfold updateMass Poly.each
    exact hfm

end Gunns.Crew
