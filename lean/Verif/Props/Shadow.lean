import Verif.Fluid.Shadow
import Verif.Props.Mixture

/-!
# C102: the fluid shadow
-/

set_option linter.unusedSectionVars false

namespace Gunns.Props

open Gunns Gunns.Mixture Gunns.Shadow
open Finset (range)

variable {K : Type _} [Field K] [LinearOrder K] [IsStrictOrderedRing K]

private theorem mixture_congr {n : Nat} {y z : Nat → K} (h : ∀ i < n, y i = z i) (hz : c66mixture n z) : c66mixture n y := by
  refine ⟨fun i hi => by rw [h i hi]; exact hz.1 i hi, ?_⟩
  rw [Finset.sum_congr rfl fun i hi => h i (Finset.mem_range.mp hi), hz.2]

private theorem toMass_congr (t : Kind) {n : Nat} {mw x y : Nat → K} (h : ∀ i < n, x i = y i) (i : Nat) (hi : i < n) :
    toMass t n mw x i = toMass t n mw y i := by
  have tot : ∀ f g : Nat → K, (∀ i < n, f i = g i) → total n f = total n g := by
    intro f g hfg
    rw [c66_total, c66_total]
    exact Finset.sum_congr rfl fun k hk => hfg k (Finset.mem_range.mp hk)
  have mm : ∀ x y : Nat → K, (∀ i < n, x i = y i) → ∀ i < n, moleToMass n mw x x i = moleToMass n mw y y i := by
    intro x y hxy i hi
    unfold moleToMass
    simp only
    rw [tot (fun i => x i * mw i) (fun i => y i * mw i) fun k hk => by rw [hxy k hk]]
    split
    · unfold write; rw [if_pos hi, if_pos hi]; simp only; rw [hxy i hi]
    · exact hxy i hi
  have pm : ∀ i < n, pressureToMole n x x i = pressureToMole n y y i := by
    intro i hi
    unfold pressureToMole
    rw [tot x y h]
    split
    · unfold write; rw [if_pos hi, if_pos hi]; simp only; rw [h i hi]
    · exact h i hi
  cases t with
  | mass => exact h i hi
  | mole => exact mm x y h i hi
  | pressure => exact mm _ _ pm i hi

private theorem transform_same (n : Nat) (map : Nat → Option Nat) (hm : ∀ i < n, map i = some i) (x : Nat → K) (hx : c66mixture n x) :
    ∃ y, transform n map x = some y ∧ ∀ i < n, y i = x i := by
  have key : ∀ k, k ≤ n → loop (fun i (s : (Nat → K) × K) => match map i with
      | some j => (fun k => if k = j then s.1 k + x i else s.1 k, s.2 + x i)
      | none => s) k (fun _ => 0, 0) = (fun i => if i < k then x i else 0, ∑ i ∈ range k, x i) := by
    intro k
    induction k with
    | zero =>
      intro _
      show ((fun _ => 0, 0) : (Nat → K) × K) = _
      simp
    | succ k ih =>
      intro hk
      rw [loop_succ, ih (by omega)]
      simp only [hm k (by omega)]
      rw [Finset.sum_range_succ]
      refine Prod.ext ?_ rfl
      funext i
      simp only
      by_cases h1 : i = k
      · subst h1; simp
      · rw [if_neg h1]
        by_cases h2 : i < k
        · rw [if_pos h2, if_pos (by omega)]
        · rw [if_neg h2, if_neg (by omega)]
  have e : transform n map x = some (fun k => (if k < n then x k else 0) / ∑ i ∈ range n, x i) := by
    refine (congrArg (fun r : (Nat → K) × K => if r.2 > 0 then some (fun k => r.1 k / r.2) else none) (key n le_rfl)).trans ?_
    exact if_pos (by rw [hx.2]; exact one_pos)
  exact ⟨_, e, fun i hi => by rw [if_pos hi, hx.2, div_one]⟩

/-- Whatever the kind of data between two simulations of the same fluids, what the one puts out for a mixture the other takes back to the same mixture. -/
theorem c102_round_trip (t : Kind) {n : Nat} {mw x : Nat → K} (hw : c66weights n mw) (hx : c66mixture n x) (p : K) (hp : dblEps ≤ p) (i : Nat) (hi : i < n) :
    toMass t n mw (toOut t n mw p x) i = x i := by
  have m2 := (c66_round_trip hw hx x x).2.1
  cases t with
  | mass => rfl
  | mole => exact (c66_round_trip hw hx x (massToMole n mw x x)).2.2.2 i hi
  | pressure =>
    have hq := (c66_pressure m2 hp (q := moleToPressure n (massToMole n mw x x) p (massToMole n mw x x))
      (by rw [(c66_pressure m2 hp (q := fun _ => p) (by
        rw [Finset.sum_const, Finset.card_range, nsmul_eq_mul]
        have hn : 1 ≤ n := by omega
        have : (1 : K) ≤ n := by exact_mod_cast hn
        have hp0 : 0 < p := lt_of_lt_of_le dblEps_pos hp
        nlinarith) (massToMole n mw x x) x).1]; exact hp)
      (massToMole n mw x x) (moleToPressure n (massToMole n mw x x) p (massToMole n mw x x))).2.1
    have e := toMass_congr .mole (mw := mw) hq i hi
    exact e.trans ((c66_round_trip hw hx x (massToMole n mw x x)).2.2.2 i hi)

/-- So the node behind an active shadow has the mixture of the node that it stands for, with every new set of inputs. -/
theorem c102_copies (t : Kind) {n : Nat} {mw x : Nat → K} (hw : c66weights n mw) (hx : c66mixture n x) (p : K) (hp : dblEps ≤ p)
    (map : Nat → Option Nat) (hm : ∀ i < n, map i = some i) (l : Link K) (hl : l.first = true) :
    (∀ i < n, (processInputs t n mw map true (setInputs n p (toOut t n mw p x) l)).node i = x i)
      ∧ (processInputs t n mw map true (setInputs n p (toOut t n mw p x) l)).source = p := by
  have hmix : ∀ i < n, toMass t n mw (setInputs n p (toOut t n mw p x) l).mixture i = x i := by
    intro i hi
    refine (toMass_congr t (fun k hk => ?_) i hi).trans (c102_round_trip t hw hx p hp i hi)
    show write n (toOut t n mw p x) l.mixture k = _
    unfold write
    rw [if_pos hk]
  obtain ⟨y, h1, h2⟩ := transform_same n map hm _ (mixture_congr hmix hx)
  have e : processInputs t n mw map true (setInputs n p (toOut t n mw p x) l)
      = { setInputs n p (toOut t n mw p x) l with
          active := true
          mixture := toMass t n mw (setInputs n p (toOut t n mw p x) l).mixture
          source := p
          node := (transform n map (toMass t n mw (setInputs n p (toOut t n mw p x) l).mixture)).getD l.node } := by
    unfold processInputs
    rw [if_pos (show (setInputs n p (toOut t n mw p x) l).first = true from hl)]
    rfl
  rw [e, h1]
  exact ⟨fun i hi => (h2 i hi).trans (hmix i hi), rfl⟩

/-- The first pass only notes that it was, whichever side has the control: the shadow is not active and nothing is converted.  An inactive shadow conducts nothing
and leaves the node alone; an active one has its most. -/
theorem c102_control (t : Kind) (n : Nat) (mw : Nat → K) (map : Nat → Option Nat) (mine : Bool) (most : K) (l : Link K) :
    (l.first = false → processInputs t n mw map mine l = { l with
        active := false
        first := true })
      ∧ (l.first = true → (processInputs t n mw map mine l).active = mine)
      ∧ ((processInputs t n mw map mine l).active = false → (processInputs t n mw map mine l).node = l.node
          ∧ (processInputs t n mw map mine l).source = l.source ∧ (updateState most (processInputs t n mw map mine l)).cond = 0)
      ∧ ((processInputs t n mw map mine l).active = true → (updateState most (processInputs t n mw map mine l)).cond = most) := by
  cases hf : l.first
  · have e : processInputs t n mw map mine l = { l with
        active := false
        first := true } := by
      unfold processInputs; rw [if_neg (by rw [hf]; decide)]
    rw [e]
    exact ⟨fun _ => rfl, fun h => absurd h (by simp), fun _ => ⟨rfl, rfl, rfl⟩, fun h => absurd h (by simp)⟩
  · cases mine <;> simp [processInputs, updateState, hf]

/-- A mixture in mole fractions that is not set anew is converted again with every pass: after `k` passes each constituent has the weight of its share times
the `k`-th power of its molecular weight. -/
theorem c102_again {n : Nat} {mw x : Nat → K} (hw : c66weights n mw) (hx : c66mixture n x) (map : Nat → Option Nat) (mine : ℕ → Bool) (l : Link K)
    (hl : l.first = true) (hm : ∀ i < n, l.mixture i = x i) (s : ℕ → Link K) (h0 : s 0 = l)
    (hs : ∀ k, s (k + 1) = processInputs .mole n mw map (mine k) (s k)) (k : ℕ) :
    (s k).first = true ∧ ∀ i < n, (s k).mixture i = c66share n (fun j => x j * mw j ^ k) i := by
  induction k with
  | zero =>
    rw [h0]
    refine ⟨hl, fun i hi => ?_⟩
    rw [hm i hi]
    simp only [pow_zero, mul_one]
    exact (c66_mixture_share hx i).symm
  | succ k ih =>
    obtain ⟨i1, i2⟩ := ih
    have hwp : ∀ i < n, 0 < mw i := fun i hi => c66_weight_pos hw hi
    have hamt : c66amounts n (fun j => x j * mw j ^ k) :=
      c66_weighted (mw := fun j => mw j ^ k) (fun i hi => pow_pos (hwp i hi) k) (c66_mixture_amounts hx)
    have hmix : c66mixture n (s k).mixture := mixture_congr i2 (c66_share_mixture hamt)
    have e1 : (s (k + 1)).first = true := by
      rw [hs k]; unfold processInputs; rw [if_pos i1]; exact i1
    have e2 : (s (k + 1)).mixture = moleToMass n mw (s k).mixture (s k).mixture := by
      rw [hs k]; unfold processInputs; rw [if_pos i1]; rfl
    refine ⟨e1, fun i hi => ?_⟩
    rw [e2, c66_moleToMass hw hmix _ hi]
    refine c66_share_scale (c := (∑ j ∈ range n, x j * mw j ^ k)⁻¹) (inv_ne_zero hamt.2.ne') (fun j hj => ?_) hi
    rw [i2 j hj]
    unfold c66share
    ring

/-- Partial pressures are the same from the second pass on, the mixture by then having fractions that add up to one; a mixture in mass fractions alone is
not touched by passes. -/
theorem c102_again_other (n : Nat) (mw y : Nat → K) (hy : c66mixture n y) (i : Nat) (hi : i < n) :
    toMass .pressure n mw y i = toMass .mole n mw y i ∧ toMass .mass n mw y i = y i := by
  have h : ∀ i < n, pressureToMole n y y i = y i := by
    intro i hi
    unfold pressureToMole
    rw [c66_total, hy.2, if_pos (show (1 : K) ≥ dblEps from dblEps_lt_one.le)]
    unfold write
    rw [if_pos hi]
    exact div_one _
  exact ⟨toMass_congr .mole h i hi, rfl⟩

private def weights : Nat → ℚ := fun i => if i = 0 then 2 else 32
private def half : Nat → ℚ := fun _ => 1 / 2
private def link : Link ℚ := ⟨true, false, 100, half, 0, 0, half⟩

/-- Hydrogen and oxygen in equal moles: the first pass gives the node the right sixteen parts of seventeen of oxygen, and the third, without new inputs, has all
but a four-thousandth. -/
theorem c102_third : (processInputs .mole 2 weights some true link).node 1 = 16 / 17
    ∧ 4095 / 4096 < ((processInputs .mole 2 weights some true)^[3] link).node 1 := by decide +kernel

example : c66weights 2 weights := by
  intro i hi
  unfold weights
  split <;> refine ⟨?_, ?_⟩ <;> decide +kernel

end Gunns.Props
