import Verif.Base.Loop
import Verif.Fluid.Mixture
import Mathlib.Algebra.BigOperators.Group.Finset.Basic
import Mathlib.Algebra.Order.BigOperators.Group.Finset
import Mathlib.Algebra.BigOperators.Ring.Finset
import Mathlib.Algebra.BigOperators.Field
import Mathlib.Data.Rat.Defs
import Mathlib.Algebra.Order.Ring.Rat
import Mathlib.Tactic.Linarith
import Mathlib.Tactic.FieldSimp
import Mathlib.Tactic.Ring
import Mathlib.Tactic.NormNum

/-!
# C66: conversions of mixtures
-/

set_option linter.unusedSectionVars false

namespace Gunns.Props

open Gunns.Mixture
open Finset (range)

variable {K : Type _} [Field K] [LinearOrder K] [IsStrictOrderedRing K]

/-! ## Statements -/

/-- The part of the whole that amount `i` is. -/
def c66share (n : Nat) (a : Nat → K) (i : Nat) : K := a i / ∑ k ∈ range n, a k

/-- Amounts of `n` compounds, not all zero. -/
def c66amounts (n : Nat) (a : Nat → K) : Prop := (∀ i < n, 0 ≤ a i) ∧ 0 < ∑ i ∈ range n, a i

/-- Fractions of a mixture. -/
def c66mixture (n : Nat) (x : Nat → K) : Prop := (∀ i < n, 0 ≤ x i) ∧ ∑ i ∈ range n, x i = 1

/-- Molecular weights that are neither next to nothing nor huge. -/
def c66weights (n : Nat) (mw : Nat → K) : Prop := ∀ i < n, dblEps ≤ mw i ∧ mw i * dblEps ≤ 1

/-- What `normalizeArray` takes as zero. -/
def c66clip (v : K) : K := if v < dblEps * dblEps then 0 else v

/-- What compound `k` of the local fluid gets from the external fluid `x`: the fractions of the compounds of its type,
and, if it is the one to convert to, the fractions of all compounds that the local fluid does not have. -/
def c66received (nIn : Nat) (inTypes : Nat → Nat) (nOut : Nat) (outTypes : Nat → Nat) (convert : Option Nat)
    (x : Nat → K) (k : Nat) : K :=
  ∑ i ∈ range nIn, if inTypes i = outTypes k then x i
    else if convert = some (outTypes k) ∧ ∀ j < nOut, inTypes i ≠ outTypes j then x i else 0

/-! ## Lemmas -/

theorem c66_total (n : Nat) (f : Nat → K) : total n f = ∑ i ∈ range n, f i := by
  unfold total
  induction n with
  | zero => simp
  | succ n ih => rw [loop_succ, ih, Finset.sum_range_succ]

private theorem write_lt {n i : Nat} (h : i < n) (a b : Nat → K) : write n a b i = a i := by
  unfold write; rw [if_pos h]

private theorem write_ge {n i : Nat} (h : n ≤ i) (a b : Nat → K) : write n a b i = b i := by
  unfold write; rw [if_neg (not_lt.mpr h)]

private theorem sum_write (n : Nat) (a b : Nat → K) : ∑ i ∈ range n, write n a b i = ∑ i ∈ range n, a i :=
  Finset.sum_congr rfl fun _ hi => write_lt (Finset.mem_range.mp hi) a b

private theorem share_sum {n : Nat} {a : Nat → K} (h : 0 < ∑ i ∈ range n, a i) :
    ∑ i ∈ range n, c66share n a i = 1 := by
  unfold c66share
  rw [← Finset.sum_div, div_self h.ne']

theorem c66_share_mixture {n : Nat} {a : Nat → K} (h : c66amounts n a) : c66mixture n (c66share n a) :=
  ⟨fun i hi => div_nonneg (h.1 i hi) h.2.le, share_sum h.2⟩

theorem c66_mixture_amounts {n : Nat} {x : Nat → K} (h : c66mixture n x) : c66amounts n x :=
  ⟨h.1, by rw [h.2]; exact one_pos⟩

theorem c66_mixture_share {n : Nat} {x : Nat → K} (h : c66mixture n x) (i : Nat) : c66share n x i = x i := by
  unfold c66share; rw [h.2, div_one]

theorem c66_weight_pos {n : Nat} {mw : Nat → K} (h : c66weights n mw) {i : Nat} (hi : i < n) : 0 < mw i :=
  lt_of_lt_of_le dblEps_pos (h i hi).1

private theorem mean_ge {n : Nat} {mw x : Nat → K} (hw : ∀ i < n, dblEps ≤ mw i) (hx : c66mixture n x) :
    dblEps ≤ ∑ i ∈ range n, x i * mw i := by
  have h : ∑ i ∈ range n, x i * dblEps ≤ ∑ i ∈ range n, x i * mw i :=
    Finset.sum_le_sum fun i hi =>
      mul_le_mul_of_nonneg_left (hw i (Finset.mem_range.mp hi)) (hx.1 i (Finset.mem_range.mp hi))
  rwa [← Finset.sum_mul, hx.2, one_mul] at h

private theorem weights_inv {n : Nat} {mw : Nat → K} (h : c66weights n mw) :
    ∀ i < n, dblEps ≤ (mw i)⁻¹ := by
  intro i hi
  rw [le_inv_comm₀ dblEps_pos (c66_weight_pos h hi), ← one_div, le_div_iff₀ dblEps_pos]
  exact (h i hi).2

theorem c66_moleToMass {n : Nat} {mw x : Nat → K} (hw : c66weights n mw) (hx : c66mixture n x)
    (out : Nat → K) {i : Nat} (hi : i < n) :
    moleToMass n mw x out i = c66share n (fun k => x k * mw k) i := by
  have e : moleToMass n mw x out = if total n (fun i => x i * mw i) ≥ dblEps then
      write n (fun i => x i * mw i / total n (fun i => x i * mw i)) out else out := rfl
  rw [e, c66_total, if_pos (mean_ge (fun i hi => (hw i hi).1) hx), write_lt hi]
  rfl

theorem c66_massToMole {n : Nat} {mw x : Nat → K} (hw : c66weights n mw) (hx : c66mixture n x)
    (out : Nat → K) {i : Nat} (hi : i < n) :
    massToMole n mw x out i = c66share n (fun k => x k / mw k) i := by
  have e : massToMole n mw x out = if total n (fun i => x i / mw i) ≥ dblEps then
      write n (fun i => x i / mw i / total n (fun i => x i / mw i)) out else out := rfl
  have h := mean_ge (weights_inv hw) hx
  simp only [← div_eq_mul_inv] at h
  rw [e, c66_total, if_pos h, write_lt hi]
  rfl

theorem c66_share_scale {n : Nat} {a b : Nat → K} {c : K} (hc : c ≠ 0) (h : ∀ i < n, a i = c * b i)
    {i : Nat} (hi : i < n) : c66share n a i = c66share n b i := by
  unfold c66share
  rw [Finset.sum_congr rfl fun k hk => h k (Finset.mem_range.mp hk), ← Finset.mul_sum, h i hi,
    mul_div_mul_left _ _ hc]

theorem c66_weighted {n : Nat} {mw a : Nat → K} (hw : ∀ i < n, 0 < mw i) (ha : c66amounts n a) :
    c66amounts n (fun i => a i * mw i) := by
  refine ⟨fun i hi => mul_nonneg (ha.1 i hi) (hw i hi).le, ?_⟩
  have : ∃ i ∈ range n, 0 < a i := by
    by_contra hc
    push Not at hc
    exact absurd ha.2 (not_lt.mpr (Finset.sum_nonpos hc))
  obtain ⟨i, hi, h⟩ := this
  exact Finset.sum_pos' (fun k hk => mul_nonneg (ha.1 k (Finset.mem_range.mp hk)) (hw k (Finset.mem_range.mp hk)).le)
    ⟨i, hi, mul_pos h (hw i (Finset.mem_range.mp hi))⟩

private theorem c66_find {p : Nat → Bool} {n j : Nat} (h : (List.range n).find? p = some j) : j < n ∧ p j = true :=
  ⟨List.mem_range.mp (List.mem_of_find?_eq_some h), List.find?_some h⟩

private theorem position_some {n : Nat} {types : Nat → Nat} {t j : Nat} (h : position n types t = some j) :
    j < n ∧ t = types j := by
  have := c66_find h
  exact ⟨this.1, of_decide_eq_true this.2⟩

private theorem position_none {n : Nat} {types : Nat → Nat} {t : Nat} :
    position n types t = none ↔ ∀ j < n, t ≠ types j := by
  unfold position
  rw [List.find?_eq_none]
  constructor
  · intro h j hj
    have := h j (List.mem_range.mpr hj)
    simpa using this
  · intro h j hj
    have := h j (List.mem_range.mp hj)
    simpa using this

/-- The entry of the map for one compound. -/
private def entry (inTypes : Nat → Nat) (nOut : Nat) (outTypes : Nat → Nat) (conv : Option Nat) (i : Nat) : Option Nat :=
  match position nOut outTypes (inTypes i) with
  | some j => some j
  | none => conv

private theorem build_none (nIn : Nat) (inTypes : Nat → Nat) (nOut : Nat) (outTypes : Nat → Nat) :
    buildMap nIn inTypes nOut outTypes none =
      if (List.range nIn).all (fun i => (entry inTypes nOut outTypes none i).isNone) then none
      else some (entry inTypes nOut outTypes none) := rfl

private theorem build_some {nIn : Nat} {inTypes : Nat → Nat} {nOut : Nat} {outTypes : Nat → Nat} {t j : Nat}
    (h : position nOut outTypes t = some j) :
    buildMap nIn inTypes nOut outTypes (some t) =
      if (List.range nIn).all (fun i => (entry inTypes nOut outTypes (some j) i).isNone) then none
      else some (entry inTypes nOut outTypes (some j)) := by
  unfold buildMap
  simp only [h]
  rfl

private theorem build_absent {nIn : Nat} {inTypes : Nat → Nat} {nOut : Nat} {outTypes : Nat → Nat} {t : Nat}
    (h : position nOut outTypes t = none) : buildMap nIn inTypes nOut outTypes (some t) = none := by
  unfold buildMap
  simp only [h]

private theorem build_shape {nIn : Nat} {inTypes : Nat → Nat} {nOut : Nat} {outTypes : Nat → Nat}
    {convert : Option Nat} {map : Nat → Option Nat} (h : buildMap nIn inTypes nOut outTypes convert = some map) :
    ∃ conv, map = entry inTypes nOut outTypes conv ∧
      ((convert = none ∧ conv = none) ∨
        ∃ t j, convert = some t ∧ conv = some j ∧ j < nOut ∧ t = outTypes j) := by
  cases convert with
  | none =>
    rw [build_none] at h
    split at h
    · cases h
    · exact ⟨none, (Option.some.inj h).symm, Or.inl ⟨rfl, rfl⟩⟩
  | some t =>
    cases hp : position nOut outTypes t with
    | none => rw [build_absent hp] at h; cases h
    | some j =>
      rw [build_some hp] at h
      split at h
      · cases h
      · exact ⟨some j, (Option.some.inj h).symm, Or.inr ⟨t, j, rfl, rfl, position_some hp⟩⟩

private theorem transform_loop (map : Nat → Option Nat) (x : Nat → K) (n : Nat) :
    loop (fun i (s : (Nat → K) × K) => match map i with
      | some j => (fun k => if k = j then s.1 k + x i else s.1 k, s.2 + x i)
      | none => s) n (fun _ => 0, 0) =
    (fun k => ∑ i ∈ range n, if map i = some k then x i else 0,
      ∑ i ∈ range n, if (map i).isSome then x i else 0) := by
  induction n with
  | zero => simp
  | succ n ih =>
    rw [loop_succ, ih]
    cases h : map n with
    | none =>
      simp only [Finset.sum_range_succ, h]
      simp
    | some j =>
      simp only [Finset.sum_range_succ, h]
      refine Prod.ext ?_ (by simp)
      funext k
      by_cases hk : k = j
      · simp [hk]
      · have : ¬ j = k := fun e => hk e.symm
        simp [hk, this]

private theorem transform_eq (nIn : Nat) (map : Nat → Option Nat) (x : Nat → K) :
    transform nIn map x =
      if (∑ i ∈ range nIn, if (map i).isSome then x i else 0) > 0 then
        some (fun k => (∑ i ∈ range nIn, if map i = some k then x i else 0) /
          ∑ i ∈ range nIn, if (map i).isSome then x i else 0)
      else none :=
  congrArg (fun r : (Nat → K) × K => if r.2 > 0 then some (fun k => r.1 k / r.2) else none) (transform_loop map x nIn)

private theorem entry_iff {inTypes : Nat → Nat} {nOut : Nat} {outTypes : Nat → Nat} {convert conv : Option Nat}
    (hd : ∀ j < nOut, ∀ k < nOut, outTypes j = outTypes k → j = k)
    (hc : (convert = none ∧ conv = none) ∨ ∃ t j, convert = some t ∧ conv = some j ∧ j < nOut ∧ t = outTypes j)
    {k : Nat} (hk : k < nOut) (i : Nat) :
    entry inTypes nOut outTypes conv i = some k ↔
      inTypes i = outTypes k ∨
        (convert = some (outTypes k) ∧ ∀ j < nOut, inTypes i ≠ outTypes j) := by
  unfold entry
  cases hp : position nOut outTypes (inTypes i) with
  | some j =>
    obtain ⟨hj, e⟩ := position_some hp
    simp only
    constructor
    · intro h
      rw [← Option.some.inj h]
      exact Or.inl e
    · rintro (h | ⟨-, h⟩)
      · rw [hd j hj k hk (e.symm.trans h)]
      · exact absurd e (h j hj)
  | none =>
    have hn := position_none.mp hp
    simp only
    constructor
    · intro h
      rcases hc with ⟨-, h2⟩ | ⟨t, j, h1, h2, -, h3⟩
      · rw [h2] at h; cases h
      · rw [h2] at h
        rw [← Option.some.inj h]
        exact Or.inr ⟨h1.trans (by rw [h3]), hn⟩
    · rintro (h | ⟨h, -⟩)
      · exact absurd h (hn k hk)
      · rcases hc with ⟨h1, -⟩ | ⟨t, j, h1, h2, h3, h4⟩
        · rw [h1] at h; cases h
        · rw [h1] at h
          rw [h2, hd j h3 k hk (h4.symm.trans (Option.some.inj h))]

private theorem entry_lt {inTypes : Nat → Nat} {nOut : Nat} {outTypes : Nat → Nat} {convert conv : Option Nat}
    (hc : (convert = none ∧ conv = none) ∨ ∃ t j, convert = some t ∧ conv = some j ∧ j < nOut ∧ t = outTypes j)
    {i k : Nat} (h : entry inTypes nOut outTypes conv i = some k) : k < nOut := by
  unfold entry at h
  cases hp : position nOut outTypes (inTypes i) with
  | some j =>
    rw [hp] at h
    exact Option.some.inj h ▸ (position_some hp).1
  | none =>
    rw [hp] at h
    rcases hc with ⟨-, h2⟩ | ⟨t, j, h1, h2, h3, -⟩
    · rw [h2] at h; cases h
    · rw [h2] at h
      exact Option.some.inj h ▸ h3

private theorem received_eq {inTypes : Nat → Nat} {nOut : Nat} {outTypes : Nat → Nat} {convert conv : Option Nat}
    (hd : ∀ j < nOut, ∀ k < nOut, outTypes j = outTypes k → j = k)
    (hc : (convert = none ∧ conv = none) ∨ ∃ t j, convert = some t ∧ conv = some j ∧ j < nOut ∧ t = outTypes j)
    (nIn : Nat) (x : Nat → K) {k : Nat} (hk : k < nOut) :
    (∑ i ∈ range nIn, if entry inTypes nOut outTypes conv i = some k then x i else 0) =
      c66received nIn inTypes nOut outTypes convert x k := by
  unfold c66received
  refine Finset.sum_congr rfl fun i _ => ?_
  have := entry_iff hd hc hk i (inTypes := inTypes)
  by_cases h1 : inTypes i = outTypes k
  · rw [if_pos (this.mpr (Or.inl h1)), if_pos h1]
  · rw [if_neg h1]
    by_cases h2 : convert = some (outTypes k) ∧ ∀ j < nOut, inTypes i ≠ outTypes j
    · rw [if_pos (this.mpr (Or.inr h2)), if_pos h2]
    · rw [if_neg (fun h => (this.mp h).elim h1 h2), if_neg h2]

private theorem mapped_eq {inTypes : Nat → Nat} {nOut : Nat} {outTypes : Nat → Nat} {convert conv : Option Nat}
    (hd : ∀ j < nOut, ∀ k < nOut, outTypes j = outTypes k → j = k)
    (hc : (convert = none ∧ conv = none) ∨ ∃ t j, convert = some t ∧ conv = some j ∧ j < nOut ∧ t = outTypes j)
    (nIn : Nat) (x : Nat → K) :
    (∑ i ∈ range nIn, if (entry inTypes nOut outTypes conv i).isSome then x i else 0) =
      ∑ k ∈ range nOut, c66received nIn inTypes nOut outTypes convert x k := by
  rw [Finset.sum_congr rfl fun k hk => (received_eq hd hc nIn x (Finset.mem_range.mp hk)).symm, Finset.sum_comm]
  refine Finset.sum_congr rfl fun i _ => ?_
  cases h : entry inTypes nOut outTypes conv i with
  | none => simp
  | some j =>
    have hj := entry_lt hc h
    simp [hj]

/-! ## Theorems -/

/-- **C66.** For any amounts of any compounds, in moles, the conversion takes the parts of the moles to the parts of the
mass, and the other conversion takes these back; what lies behind the compounds in the arrays is not written. -/
theorem c66_amounts {n : Nat} {mw a : Nat → K} (hw : c66weights n mw) (ha : c66amounts n a) (out : Nat → K) :
    (∀ i < n, moleToMass n mw (c66share n a) out i = c66share n (fun k => a k * mw k) i) ∧
    (∀ i < n, massToMole n mw (c66share n (fun k => a k * mw k)) out i = c66share n a i) ∧
    ∀ i, n ≤ i → moleToMass n mw (c66share n a) out i = out i ∧
      massToMole n mw (c66share n (fun k => a k * mw k)) out i = out i := by
  have hwp : ∀ i < n, 0 < mw i := fun i hi => c66_weight_pos hw hi
  have ham := c66_weighted hwp ha
  refine ⟨fun i hi => ?_, fun i hi => ?_, fun i hi => ⟨?_, ?_⟩⟩
  · rw [c66_moleToMass hw (c66_share_mixture ha) out hi]
    refine c66_share_scale (c := (∑ k ∈ range n, a k)⁻¹) (inv_ne_zero ha.2.ne') (fun k hk => ?_) hi
    unfold c66share; ring
  · rw [c66_massToMole hw (c66_share_mixture ham) out hi]
    refine c66_share_scale (c := (∑ k ∈ range n, a k * mw k)⁻¹) (inv_ne_zero ham.2.ne') (fun k hk => ?_) hi
    have := (hwp k hk).ne'
    unfold c66share; field_simp
  · unfold moleToMass
    simp only
    split
    · exact write_ge hi _ _
    · rfl
  · unfold massToMole
    simp only
    split
    · exact write_ge hi _ _
    · rfl

/-- **C66.** Mole fractions turned into mass fractions and back are as before, and so are mass fractions turned into mole
fractions and back; each conversion of a mixture is a mixture. -/
theorem c66_round_trip {n : Nat} {mw x : Nat → K} (hw : c66weights n mw) (hx : c66mixture n x) (o p : Nat → K) :
    c66mixture n (moleToMass n mw x o) ∧ c66mixture n (massToMole n mw x o) ∧
    (∀ i < n, massToMole n mw (moleToMass n mw x o) p i = x i) ∧
    ∀ i < n, moleToMass n mw (massToMole n mw x o) p i = x i := by
  have hwp : ∀ i < n, 0 < mw i := fun i hi => c66_weight_pos hw hi
  have ha := c66_weighted hwp (c66_mixture_amounts hx)
  have hb : c66amounts n (fun i => x i / mw i) := by
    have := c66_weighted (mw := fun i => (mw i)⁻¹) (fun i hi => inv_pos.mpr (hwp i hi)) (c66_mixture_amounts hx)
    simpa only [← div_eq_mul_inv] using this
  have transfer : ∀ {y z : Nat → K}, (∀ i < n, y i = z i) → c66mixture n z → c66mixture n y := by
    intro y z h hz
    refine ⟨fun i hi => by rw [h i hi]; exact hz.1 i hi, ?_⟩
    rw [Finset.sum_congr rfl fun i hi => h i (Finset.mem_range.mp hi), hz.2]
  have m1 : c66mixture n (moleToMass n mw x o) :=
    transfer (fun i hi => c66_moleToMass hw hx o hi) (c66_share_mixture ha)
  have m2 : c66mixture n (massToMole n mw x o) :=
    transfer (fun i hi => c66_massToMole hw hx o hi) (c66_share_mixture hb)
  refine ⟨m1, m2, fun i hi => ?_, fun i hi => ?_⟩
  · rw [c66_massToMole hw m1 p hi, ← c66_mixture_share hx i]
    refine c66_share_scale (c := (∑ k ∈ range n, x k * mw k)⁻¹) (inv_ne_zero ha.2.ne') (fun k hk => ?_) hi
    have := (hwp k hk).ne'
    rw [c66_moleToMass hw hx o hk]
    unfold c66share; field_simp
  · rw [c66_moleToMass hw m2 p hi, ← c66_mixture_share hx i]
    refine c66_share_scale (c := (∑ k ∈ range n, x k / mw k)⁻¹) (inv_ne_zero hb.2.ne') (fun k hk => ?_) hi
    have := (hwp k hk).ne'
    rw [c66_massToMole hw hx o hk]
    unfold c66share; field_simp

/-- **C66.** Partial pressures are the parts of the pressure: they sum to the pressure, the mole fractions from them are
as before, and the partial pressures from the mole fractions of partial pressures are as before. -/
theorem c66_pressure {n : Nat} {x : Nat → K} (hx : c66mixture n x) {p : K} (hp : dblEps ≤ p) {q : Nat → K}
    (hq : dblEps ≤ ∑ i ∈ range n, q i) (o r : Nat → K) :
    ∑ i ∈ range n, moleToPressure n x p o i = p ∧
    (∀ i < n, pressureToMole n (moleToPressure n x p o) r i = x i) ∧
    (∀ i < n, moleToPressure n (pressureToMole n q o) (∑ i ∈ range n, q i) r i = q i) := by
  have hp0 : p ≠ 0 := (lt_of_lt_of_le dblEps_pos hp).ne'
  have hq0 : ∑ i ∈ range n, q i ≠ 0 := (lt_of_lt_of_le dblEps_pos hq).ne'
  have hs : ∑ i ∈ range n, moleToPressure n x p o i = p := by
    unfold moleToPressure
    rw [sum_write, ← Finset.sum_mul, hx.2, one_mul]
  refine ⟨hs, fun i hi => ?_, fun i hi => ?_⟩
  · unfold pressureToMole
    simp only [c66_total]
    rw [hs, if_pos hp, write_lt hi]
    unfold moleToPressure
    rw [write_lt hi]
    field_simp
  · unfold moleToPressure
    rw [write_lt hi]
    unfold pressureToMole
    simp only [c66_total]
    rw [if_pos hq, write_lt hi]
    field_simp

/-- **C66.** Nothing of everything leaves the output as it was. -/
theorem c66_nothing {n : Nat} {x : Nat → K} (hx : ∀ i < n, x i = 0) (mw out : Nat → K) :
    moleToMass n mw x out = out ∧ massToMole n mw x out = out ∧ pressureToMole n x out = out := by
  have h : ¬ (0 : K) ≥ dblEps := not_le.mpr dblEps_pos
  have s1 : total n (fun i => x i * mw i) = 0 := by
    rw [c66_total]
    exact Finset.sum_eq_zero fun i hi => by rw [hx i (Finset.mem_range.mp hi), zero_mul]
  have s2 : total n (fun i => x i / mw i) = 0 := by
    rw [c66_total]
    exact Finset.sum_eq_zero fun i hi => by rw [hx i (Finset.mem_range.mp hi), zero_div]
  have s3 : total n x = 0 := by
    rw [c66_total]
    exact Finset.sum_eq_zero fun i hi => hx i (Finset.mem_range.mp hi)
  refine ⟨?_, ?_, ?_⟩
  · unfold moleToMass; simp only [s1]; rw [if_neg h]
  · unfold massToMole; simp only [s2]; rw [if_neg h]
  · unfold pressureToMole; simp only [s3]; rw [if_neg h]

/-- **C66.** Normalization makes tiny and negative entries zero. If what is left sums to one within the tolerance, it
stays so and the result is false; else the result is true, and what is left, if anything, is divided by its sum. -/
theorem c66_normalize (n : Nat) (x : Nat → K) :
    let s := ∑ i ∈ range n, c66clip (x i)
    (∀ i < n, 0 ≤ (normalize n x).1 i) ∧ (∀ i, n ≤ i → (normalize n x).1 i = x i) ∧
    ((normalize n x).2 = true ↔ fltEps < |s - 1|) ∧
    (|s - 1| ≤ fltEps → ∀ i < n, (normalize n x).1 i = c66clip (x i)) ∧
    (fltEps < |s - 1| → 0 < s → (∀ i < n, (normalize n x).1 i * s = c66clip (x i)) ∧
      ∑ i ∈ range n, (normalize n x).1 i = 1) ∧
    (s ≤ 0 → ∀ i < n, (normalize n x).1 i = 0) := by
  have hclip : ∀ v : K, 0 ≤ c66clip v := by
    intro v
    unfold c66clip
    split
    · exact le_rfl
    · rename_i h
      exact le_trans (mul_pos dblEps_pos dblEps_pos).le (not_lt.mp h)
  intro s
  obtain ⟨y, hy⟩ : ∃ y, y = write n (fun i => c66clip (x i)) x := ⟨_, rfl⟩
  have e : normalize n x = if |total n y - 1| > fltEps then
      (if total n y > 0 then write n (fun i => y i / total n y) y else y, true) else (y, false) := by
    rw [hy]; rfl
  have hyl : ∀ i < n, y i = c66clip (x i) := fun i hi => by rw [hy, write_lt hi]
  have hyg : ∀ i, n ≤ i → y i = x i := fun i hi => by rw [hy, write_ge hi]
  have ht : total n y = s := by rw [c66_total, hy, sum_write]
  rw [ht] at e
  have hs0 : 0 ≤ s := Finset.sum_nonneg fun i _ => hclip (x i)
  have hzero : s ≤ 0 → ∀ i < n, c66clip (x i) = 0 := by
    intro h i hi
    exact (Finset.sum_eq_zero_iff_of_nonneg fun i _ => hclip (x i)).mp (le_antisymm h hs0) i (Finset.mem_range.mpr hi)
  by_cases hf : |s - 1| > fltEps
  · rw [if_pos hf] at e
    by_cases h0 : s > 0
    · rw [if_pos h0] at e
      have e1 : ∀ i < n, (normalize n x).1 i = c66clip (x i) / s := by
        intro i hi
        rw [e]
        show write n (fun i => y i / s) y i = _
        rw [write_lt hi, hyl i hi]
      refine ⟨fun i hi => ?_, fun i hi => ?_, ?_, fun h => absurd hf (not_lt.mpr h), fun _ _ => ⟨fun i hi => ?_, ?_⟩,
        fun h => absurd h0 (not_lt.mpr h)⟩
      · rw [e1 i hi]; exact div_nonneg (hclip _) hs0
      · rw [e]
        show write n (fun i => y i / s) y i = _
        rw [write_ge hi, hyg i hi]
      · rw [e]; exact ⟨fun _ => hf, fun _ => rfl⟩
      · rw [e1 i hi, div_mul_cancel₀ _ h0.ne']
      · rw [Finset.sum_congr rfl fun i hi => e1 i (Finset.mem_range.mp hi), ← Finset.sum_div]
        exact div_self h0.ne'
    · rw [if_neg h0] at e
      rw [e]
      refine ⟨fun i hi => ?_, hyg, ⟨fun _ => hf, fun _ => rfl⟩, fun h => absurd hf (not_lt.mpr h),
        fun _ h => absurd h h0, fun h i hi => ?_⟩
      · show 0 ≤ y i
        rw [hyl i hi]; exact hclip _
      · show y i = 0
        rw [hyl i hi, hzero h i hi]
  · rw [if_neg hf] at e
    rw [e]
    refine ⟨fun i hi => ?_, hyg, ⟨fun h => absurd h Bool.false_ne_true, fun h => absurd h hf⟩, fun _ => hyl, fun h => absurd h hf,
      fun h i hi => ?_⟩
    · show 0 ≤ y i
      rw [hyl i hi]; exact hclip _
    · show y i = 0
      rw [hyl i hi, hzero h i hi]

/-- **C66.** Mixing conserves the mass of each compound: unless a fraction of the mix is so small that it counts as
zero, the mass of the mix times its fraction of a compound is what the two fluids had of it, the mix is a mixture, and
no normalization was needed. Mixing throws exactly if the masses together are below the smallest. -/
theorem c66_mix {n : Nat} {a b : Nat → K} (ha : c66mixture n a) (hb : c66mixture n b) {ma mb : K}
    (h1 : 0 ≤ ma) (h2 : 0 ≤ mb) :
    (mixMasses n a ma b mb = none ↔ mb + ma < dblEps) ∧
    ∀ r, mixMasses n a ma b mb = some r →
      (∀ i < n, ma * a i + mb * b i = 0 ∨ dblEps * dblEps * (ma + mb) ≤ ma * a i + mb * b i) →
      r.1 = ma + mb ∧ (∀ i < n, r.1 * r.2.1 i = ma * a i + mb * b i) ∧ c66mixture n r.2.1 ∧ r.2.2 = false := by
  have e : mixMasses n a ma b mb = if mb + ma < dblEps then none else
      some (mb + ma, normalize n (fun i => (mb * b i + ma * a i) / (mb + ma))) := rfl
  constructor
  · rw [e]
    by_cases h : mb + ma < dblEps
    · rw [if_pos h]; exact ⟨fun _ => h, fun _ => rfl⟩
    · rw [if_neg h]; exact ⟨fun h => (Option.some_ne_none _ h).elim, fun h2 => absurd h2 h⟩
  · intro r hr hsmall
    rw [e] at hr
    by_cases h : mb + ma < dblEps
    · rw [if_pos h] at hr; cases hr
    · rw [if_neg h] at hr
      rw [← Option.some.inj hr]
      have hm : 0 < mb + ma := lt_of_lt_of_le dblEps_pos (not_lt.mp h)
      obtain ⟨y, hy⟩ : ∃ y : Nat → K, y = fun i => (mb * b i + ma * a i) / (mb + ma) := ⟨_, rfl⟩
      rw [← hy]
      have hyi : ∀ i, y i = (mb * b i + ma * a i) / (mb + ma) := fun i => by rw [hy]
      have hy0 : ∀ i < n, 0 ≤ y i := fun i hi => by
        rw [hyi]
        exact div_nonneg (add_nonneg (mul_nonneg h2 (hb.1 i hi)) (mul_nonneg h1 (ha.1 i hi))) hm.le
      have hclip : ∀ i < n, c66clip (y i) = y i := by
        intro i hi
        unfold c66clip
        rcases hsmall i hi with h0 | h0
        · have : y i = 0 := by rw [hyi, add_comm, h0, zero_div]
          rw [this]; split <;> rfl
        · rw [if_neg]
          rw [not_lt, hyi, le_div_iff₀ hm]
          linarith [h0]
      have hsum : ∑ i ∈ range n, y i = 1 := by
        rw [hy, ← Finset.sum_div, Finset.sum_add_distrib, ← Finset.mul_sum, ← Finset.mul_sum, ha.2, hb.2, mul_one,
          mul_one, div_self hm.ne']
      have hs : ∑ i ∈ range n, c66clip (y i) = 1 := by
        rw [← hsum]
        exact Finset.sum_congr rfl fun i hi => hclip i (Finset.mem_range.mp hi)
      have hn := c66_normalize n y
      simp only [hs, sub_self, abs_zero] at hn
      have hflt : (0 : K) ≤ fltEps := by unfold fltEps; positivity
      have hfr : ∀ i < n, (normalize n y).1 i = y i := fun i hi => (hn.2.2.2.1 hflt i hi).trans (hclip i hi)
      refine ⟨add_comm _ _, fun i hi => ?_, ⟨hn.1, ?_⟩, ?_⟩
      · show (mb + ma) * (normalize n y).1 i = _
        rw [hfr i hi, hyi, mul_div_cancel₀ _ hm.ne', add_comm]
      · show ∑ i ∈ range n, (normalize n y).1 i = 1
        rw [← hsum]
        exact Finset.sum_congr rfl fun i hi => hfr i (Finset.mem_range.mp hi)
      · show (normalize n y).2 = false
        have := hn.2.2.1
        cases h : (normalize n y).2 with
        | false => rfl
        | true => exact absurd (this.mp h) (not_lt.mpr hflt)

/-- **C66.** The map is refused exactly if the type to convert to is not in the local fluid, or if there is nothing to
map: the external fluid has no compounds, or none of them is in the local fluid and there is no type to convert to. -/
theorem c66_map (nIn : Nat) (inTypes : Nat → Nat) (nOut : Nat) (outTypes : Nat → Nat) (convert : Option Nat) :
    buildMap nIn inTypes nOut outTypes convert = none ↔
      (∃ t, convert = some t ∧ ∀ j < nOut, t ≠ outTypes j) ∨ nIn = 0 ∨
      (convert = none ∧ ∀ i < nIn, ∀ j < nOut, inTypes i ≠ outTypes j) := by
  have hall : ∀ conv, (List.range nIn).all (fun i => (entry inTypes nOut outTypes conv i).isNone) = true ↔
      ∀ i < nIn, entry inTypes nOut outTypes conv i = none := by
    intro conv
    rw [List.all_eq_true]
    simp
  have hnone : ∀ i, entry inTypes nOut outTypes none i = none ↔ ∀ j < nOut, inTypes i ≠ outTypes j := by
    intro i
    rw [← position_none]
    unfold entry
    cases position nOut outTypes (inTypes i) <;> simp
  cases convert with
  | none =>
    rw [build_none]
    constructor
    · intro h
      split at h
      · rename_i hx
        exact Or.inr (Or.inr ⟨rfl, fun i hi => (hnone i).mp ((hall none).mp hx i hi)⟩)
      · cases h
    · intro h
      rw [if_pos]
      rw [hall]
      rcases h with ⟨t, ht, -⟩ | h | ⟨-, h⟩
      · cases ht
      · subst h; exact fun i hi => absurd hi (Nat.not_lt_zero i)
      · exact fun i hi => (hnone i).mpr (h i hi)
  | some t =>
    cases hp : position nOut outTypes t with
    | none =>
      rw [build_absent hp]
      exact ⟨fun _ => Or.inl ⟨t, rfl, position_none.mp hp⟩, fun _ => rfl⟩
    | some j =>
      have hj := position_some hp
      rw [build_some hp]
      have hne : ∀ i, entry inTypes nOut outTypes (some j) i ≠ none := by
        intro i
        unfold entry
        cases position nOut outTypes (inTypes i) <;> simp
      constructor
      · intro h
        split at h
        · rename_i hx
          refine Or.inr (Or.inl ?_)
          by_contra hn
          exact hne 0 ((hall (some j)).mp hx 0 (Nat.pos_of_ne_zero hn))
        · cases h
      · rintro (⟨t', ht, h⟩ | h | ⟨h, -⟩)
        · rw [← Option.some.inj ht] at h
          exact absurd hj.2 (h j hj.1)
        · rw [if_pos]
          rw [hall]
          subst h; exact fun i hi => absurd hi (Nat.not_lt_zero i)
        · cases h

/-- **C66.** The transformed fluid has each of its compounds in proportion to what the compound receives: the mass
fractions of the same type in the external fluid and, for the type to convert to, of all types that are not in the local
fluid. The fractions sum to one; if nothing is received, the fluid keeps its composition. -/
theorem c66_transform {nIn nOut : Nat} {inTypes outTypes : Nat → Nat} {convert : Option Nat} {map : Nat → Option Nat}
    (hd : ∀ j < nOut, ∀ k < nOut, outTypes j = outTypes k → j = k)
    (h : buildMap nIn inTypes nOut outTypes convert = some map) (x : Nat → K) :
    let got := c66received nIn inTypes nOut outTypes convert x
    (transform nIn map x = none ↔ ∑ k ∈ range nOut, got k ≤ 0) ∧
    ∀ y, transform nIn map x = some y →
      (∀ k < nOut, y k = c66share nOut got k) ∧ (∀ k, nOut ≤ k → y k = 0) ∧ ∑ k ∈ range nOut, y k = 1 := by
  obtain ⟨conv, hm, hc⟩ := build_shape h
  intro got
  have e := transform_eq nIn map x
  rw [hm] at e ⊢
  rw [mapped_eq hd hc nIn x] at e
  constructor
  · rw [e]
    constructor
    · intro hn
      split at hn
      · cases hn
      · rename_i hx; exact not_lt.mp hx
    · intro hn
      rw [if_neg (not_lt.mpr hn)]
  · intro y hy
    rw [e] at hy
    split at hy
    · rename_i hpos
      have hy' := Option.some.inj hy
      have hk : ∀ k < nOut, y k = c66share nOut got k := by
        intro k hk
        rw [← hy']
        simp only [received_eq hd hc nIn x hk]
        rfl
      refine ⟨hk, fun k hk2 => ?_, ?_⟩
      · rw [← hy']
        simp only
        rw [Finset.sum_eq_zero, zero_div]
        intro i _
        rw [if_neg]
        intro hi
        exact absurd (entry_lt hc hi) (not_lt.mpr hk2)
      · rw [Finset.sum_congr rfl fun k h => hk k (Finset.mem_range.mp h)]
        exact share_sum hpos
    · cases hy

/-- **C66.** With a type to convert to, nothing is lost: the fractions of a mixture are received in full. -/
theorem c66_full {nIn nOut : Nat} {inTypes outTypes : Nat → Nat} {t : Nat} {map : Nat → Option Nat}
    (hd : ∀ j < nOut, ∀ k < nOut, outTypes j = outTypes k → j = k)
    (h : buildMap nIn inTypes nOut outTypes (some t) = some map) {x : Nat → K} (hx : c66mixture nIn x) :
    ∃ y, transform nIn map x = some y ∧
      ∀ k < nOut, y k = c66received nIn inTypes nOut outTypes (some t) x k := by
  obtain ⟨conv, hm, hc⟩ := build_shape h
  have hall : (∑ k ∈ range nOut, c66received nIn inTypes nOut outTypes (some t) x k) = 1 := by
    rw [← mapped_eq hd hc nIn x, ← hx.2]
    refine Finset.sum_congr rfl fun i _ => ?_
    rw [if_pos]
    rcases hc with ⟨hc, -⟩ | ⟨t', j, -, h2, -⟩
    · cases hc
    · rw [h2]
      unfold entry
      cases position nOut outTypes (inTypes i) <;> rfl
  have ht := c66_transform hd h x
  simp only [hall] at ht
  cases hy : transform nIn map x with
  | none => exact absurd (ht.1.mp hy) (not_le.mpr one_pos)
  | some y =>
    refine ⟨y, rfl, fun k hk => ?_⟩
    rw [(ht.2 y hy).1 k hk]
    unfold c66share
    rw [hall, div_one]

/-- **C66.** If the local fluid has all compounds of the external fluid, a mixture keeps the fraction of each compound,
whatever the order of the compounds and the type to convert to, and there is nothing of the other compounds. -/
theorem c66_same {nIn nOut : Nat} {inTypes outTypes : Nat → Nat} {convert : Option Nat} {map : Nat → Option Nat}
    (hd : ∀ j < nOut, ∀ k < nOut, outTypes j = outTypes k → j = k)
    (hi : ∀ j < nIn, ∀ k < nIn, inTypes j = inTypes k → j = k)
    (hin : ∀ i < nIn, ∃ j < nOut, inTypes i = outTypes j)
    (h : buildMap nIn inTypes nOut outTypes convert = some map) {x : Nat → K} (hx : c66mixture nIn x) :
    ∃ y, transform nIn map x = some y ∧
      (∀ i < nIn, ∀ k < nOut, inTypes i = outTypes k → y k = x i) ∧
      ∀ k < nOut, (∀ i < nIn, inTypes i ≠ outTypes k) → y k = 0 := by
  have hrec : ∀ k, c66received nIn inTypes nOut outTypes convert x k =
      ∑ i ∈ range nIn, if inTypes i = outTypes k then x i else 0 := by
    intro k
    unfold c66received
    refine Finset.sum_congr rfl fun i hi => ?_
    obtain ⟨j, hj, e⟩ := hin i (Finset.mem_range.mp hi)
    rw [if_neg (show ¬ (convert = some (outTypes k) ∧ ∀ j < nOut, inTypes i ≠ outTypes j) from
      fun hn => hn.2 j hj e)]
  have hall : (∑ k ∈ range nOut, c66received nIn inTypes nOut outTypes convert x k) = 1 := by
    simp only [hrec]
    rw [Finset.sum_comm, ← hx.2]
    refine Finset.sum_congr rfl fun i hi => ?_
    obtain ⟨j, hj, e⟩ := hin i (Finset.mem_range.mp hi)
    rw [Finset.sum_eq_single j]
    · rw [if_pos e]
    · intro k hk hkj
      rw [if_neg]
      intro e2
      exact hkj (hd k (Finset.mem_range.mp hk) j hj (e2.symm.trans e))
    · intro hn; exact absurd (Finset.mem_range.mpr hj) hn
  have ht := c66_transform hd h x
  simp only [hall] at ht
  cases hy : transform nIn map x with
  | none => exact absurd (ht.1.mp hy) (not_le.mpr one_pos)
  | some y =>
    have hyk : ∀ k < nOut, y k = ∑ i ∈ range nIn, if inTypes i = outTypes k then x i else 0 := by
      intro k hk
      rw [(ht.2 y hy).1 k hk]
      unfold c66share
      rw [hall, div_one, hrec]
    refine ⟨y, rfl, fun i hi2 k hk e => ?_, fun k hk hn => ?_⟩
    · rw [hyk k hk, Finset.sum_eq_single i]
      · rw [if_pos e]
      · intro i' hi' hne
        rw [if_neg]
        intro e2
        exact hne (hi i' (Finset.mem_range.mp hi') i hi2 (e2.trans e.symm))
      · intro hn; exact absurd (Finset.mem_range.mpr hi2) hn
    · rw [hyk k hk]
      exact Finset.sum_eq_zero fun i hi => if_neg (hn i (Finset.mem_range.mp hi))

/-- **C66.** With no type to convert to, compounds that both fluids have keep the proportions of their moles, as
documented: what is left out is replaced by all the others in the proportions they have. -/
theorem c66_proportions {nIn nOut : Nat} {inTypes outTypes : Nat → Nat} {map : Nat → Option Nat} {mw : Nat → K}
    (hd : ∀ j < nOut, ∀ k < nOut, outTypes j = outTypes k → j = k)
    (hi : ∀ j < nIn, ∀ k < nIn, inTypes j = inTypes k → j = k)
    (h : buildMap nIn inTypes nOut outTypes none = some map) {x : Nat → K} (hx : c66mixture nIn x)
    (hwi : c66weights nIn (fun i => mw (inTypes i))) (hwo : c66weights nOut (fun k => mw (outTypes k)))
    {y : Nat → K} (hy : transform nIn map x = some y) (o p : Nat → K)
    {i i' k k' : Nat} (hi1 : i < nIn) (hi2 : i' < nIn) (hk1 : k < nOut) (hk2 : k' < nOut)
    (e1 : inTypes i = outTypes k) (e2 : inTypes i' = outTypes k') :
    massToMole nOut (fun k => mw (outTypes k)) y o k * massToMole nIn (fun i => mw (inTypes i)) x p i' =
      massToMole nOut (fun k => mw (outTypes k)) y o k' * massToMole nIn (fun i => mw (inTypes i)) x p i := by
  have ht := c66_transform hd h x
  simp only at ht
  have hrec : ∀ i < nIn, ∀ k, inTypes i = outTypes k →
      c66received nIn inTypes nOut outTypes none x k = x i := by
    intro i hil k e
    unfold c66received
    rw [Finset.sum_eq_single i]
    · rw [if_pos e]
    · intro i' hi' hne
      rw [if_neg, if_neg]
      · rintro ⟨h, -⟩; cases h
      · intro e2
        exact hne (hi i' (Finset.mem_range.mp hi') i hil (e2.trans e.symm))
    · intro hn; exact absurd (Finset.mem_range.mpr hil) hn
  have hpos : 0 < ∑ k ∈ range nOut, c66received nIn inTypes nOut outTypes none x k := by
    by_contra hn
    have := ht.1.mpr (not_lt.mp hn)
    rw [hy] at this
    cases this
  have hy2 := ht.2 y hy
  have hmix : c66mixture nOut y := by
    refine ⟨fun k hk => ?_, hy2.2.2⟩
    rw [hy2.1 k hk]
    refine div_nonneg (Finset.sum_nonneg fun i hi => ?_) hpos.le
    have := hx.1 i (Finset.mem_range.mp hi)
    split
    · exact this
    · split
      · exact this
      · exact le_rfl
  rw [c66_massToMole hwo hmix o hk1, c66_massToMole hwo hmix o hk2, c66_massToMole hwi hx p hi1,
    c66_massToMole hwi hx p hi2]
  unfold c66share
  simp only
  rw [hy2.1 k hk1, hy2.1 k' hk2]
  unfold c66share
  rw [hrec i hi1 k e1, hrec i' hi2 k' e2, e1, e2]
  ring

/-- **C66, the failure.** With a type to convert to, the moles are not conserved, though the documentation of
`buildTransformMap` says so: oxygen and carbon dioxide, half of the mass each, enter a fluid of nitrogen and oxygen that
takes carbon dioxide as nitrogen. Oxygen is 11/19 of the moles outside and 7/15 of the moles inside, since the fraction
of the mass and not of the moles is moved. -/
theorem c66_moles_lost :
    ∃ (map : Nat → Option Nat) (y : Nat → ℚ),
      buildMap 2 (fun i => if i = 0 then 16 else 5) 2 (fun k => if k = 0 then 14 else 16) (some 14) = some map ∧
      transform 2 map (fun _ => (1 / 2 : ℚ)) = some y ∧
      massToMole 2 (fun i => if i = 0 then 32 else 44) (fun _ => (1 / 2 : ℚ)) (fun _ => 0) 0 = 11 / 19 ∧
      massToMole 2 (fun k => if k = 0 then 28 else 32) y (fun _ => 0) 1 = 7 / 15 := by
  refine ⟨_, _, rfl, (transform_eq _ _ _).trans (if_pos ?_), ?_, ?_⟩ <;> decide +kernel

/-! ## Cases -/

example : c66weights 2 (fun i => if i = 0 then (32 : ℚ) else 44) := by
  intro i _
  dsimp only
  unfold dblEps
  split <;> norm_num

example : c66amounts 2 (fun i => if i = 0 then (3 : ℚ) else 1) ∧ c66mixture 2 (fun i => if i = 0 then (3 / 4 : ℚ) else 1 / 4) := by
  unfold c66amounts c66mixture
  decide +kernel

example : moleToMass 2 (fun i => if i = 0 then (32 : ℚ) else 44) (fun i => if i = 0 then 3 / 4 else 1 / 4) (fun _ => 7) 0
    = 24 / 35 ∧
    moleToMass 2 (fun i => if i = 0 then (32 : ℚ) else 44) (fun i => if i = 0 then 3 / 4 else 1 / 4) (fun _ => 7) 2 = 7 := by
  decide +kernel

example : (normalize 3 (fun i => if i = 0 then (3 : ℚ) else if i = 1 then -1 else 1)).2 = true ∧
    (normalize 3 (fun i => if i = 0 then (3 : ℚ) else if i = 1 then -1 else 1)).1 0 = 3 / 4 := by decide +kernel

example : (mixMasses 2 (fun i => if i = 0 then (1 : ℚ) else 0) 3 (fun i => if i = 0 then 0 else 1) 1).isSome = true := by
  decide +kernel

end Gunns.Props
