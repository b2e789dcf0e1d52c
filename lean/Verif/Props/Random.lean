import Mathlib.Tactic.Linarith
import Mathlib.Tactic.Ring
import Mathlib.Tactic.NormNum
import Mathlib.Data.Rat.Floor
import Mathlib.Data.Finset.Card
import Mathlib.Data.List.GetD
import Mathlib.Data.Int.Interval
import Mathlib.Logic.Function.Iterate
import Verif.Math.Random

/-!
# C105: random numbers from a table
-/

set_option linter.unusedSectionVars false

namespace Gunns.Props

open Gunns Gunns.Random

variable {K : Type _} [Field K] [LinearOrder K] [IsStrictOrderedRing K] [FloorRing K]

/-- The table has as many numbers as are counted, each of them between zero and one and neither. -/
theorem c105_table : table.length = 1000 ∧ ∀ x ∈ table, 0 < x ∧ x < 10 ^ 15 := by
  constructor <;> decide +kernel

private theorem entry_range (k : Nat) (hk : k < 1000) : (0 : K) < entry k ∧ (entry k : K) < 1 := by
  have hl : k < table.length := by rw [c105_table.1]; exact hk
  have h := c105_table.2 (table.getD k 0) (by rw [List.getD_eq_getElem _ _ hl]; exact List.getElem_mem hl)
  unfold entry
  have p : (0 : K) < 10 ^ 15 := by positivity
  have h1 : (0 : K) < (table.getD k 0 : ℕ) := by exact_mod_cast h.1
  have h2 : ((table.getD k 0 : ℕ) : K) < 10 ^ 15 := by exact_mod_cast h.2
  exact ⟨div_pos h1 p, (div_lt_one p).mpr h2⟩

/-- The place in the table of the `n`-th number after a seed. -/
def c105place (seed : Int) (n : ℕ) : ℕ := (seed.natAbs + n) % 1000

/-- A seed that an `int` can hold, but for the least. -/
def c105seed (seed : Int) : Prop := -2 ^ 31 < seed ∧ seed < 2 ^ 31

private theorem incr (seed : Int) (h : c105seed seed) : incrementSeed seed = some (c105place seed 1) := by
  unfold incrementSeed boundSeed
  have : ¬ seed = -intMax - 1 := by
    intro hc
    have h1 := h.1
    unfold intMax at hc
    omega
  rw [if_neg this, Option.map_some]
  unfold c105place
  congr 1
  omega

/-- The seed after `n` calls. -/
def c105after (seed : Int) : ℕ → Option Int
  | 0 => some seed
  | n + 1 => (c105after seed n).bind fun s => (unit (K := ℚ) s).map fun r => (r.2 : Int)

private theorem after (seed : Int) (h : c105seed seed) (n : ℕ) : c105after seed (n + 1) = some (c105place seed (n + 1) : Int) := by
  induction n with
  | zero =>
    show (some seed).bind (fun s => (unit (K := ℚ) s).map fun r => (r.2 : Int)) = _
    rw [Option.bind_some]
    unfold unit
    rw [incr seed h]
    rfl
  | succ n ih =>
    show (c105after seed (n + 1)).bind (fun s => (unit (K := ℚ) s).map fun r => (r.2 : Int)) = _
    rw [ih, Option.bind_some]
    have hp : c105place seed (n + 1) < 1000 := Nat.mod_lt _ (by norm_num)
    have hs : c105seed (c105place seed (n + 1) : Int) := ⟨by omega, by omega⟩
    unfold unit
    rw [incr _ hs, Option.map_some, Option.map_some]
    congr 1
    unfold c105place
    simp only [Int.natAbs_natCast]
    omega

/-- The calls go through the table one by one and around: the `n`-th number is the one `n` places after the size of the seed, each number comes once in every thousand
calls, and the least `int` alone is not a seed. -/
theorem c105_cycle (seed : Int) (h : c105seed seed) :
    (∀ n, c105after seed (n + 1) = some (c105place seed (n + 1) : Int))
      ∧ (∀ n, c105place seed (n + 1000) = c105place seed n)
      ∧ (∀ n k, k < 1000 → ∃! m, m < 1000 ∧ c105place seed (n + m) = k)
      ∧ unit (K := K) seed = some (entry (c105place seed 1), c105place seed 1)
      ∧ unit (K := K) (-2 ^ 31) = none := by
  refine ⟨after seed h, fun n => ?_, fun n k hk => ?_, ?_, ?_⟩
  · unfold c105place; omega
  · unfold c105place
    refine ⟨(k + 1000 - (seed.natAbs + n) % 1000) % 1000, ⟨by omega, by omega⟩, fun m hm => ?_⟩
    have h1 := hm.1
    have h2 := hm.2
    omega
  · unfold unit; rw [incr seed h]; rfl
  · rfl

/-- A random double is between its limits and neither, whichever comes first, and the same for both orders; with equal limits it is the limit. -/
theorem c105_double (seed : Int) (h : c105seed seed) (lo hi : K) :
    ∃ v, double seed lo hi = some (v, c105place seed 1) ∧ double seed hi lo = some (v, c105place seed 1)
      ∧ (lo < hi → v = lo + (hi - lo) * entry (c105place seed 1) ∧ lo < v ∧ v < hi) ∧ (lo = hi → v = lo) := by
  have hp : c105place seed 1 < 1000 := Nat.mod_lt _ (by norm_num)
  obtain ⟨e1, e2⟩ := entry_range (K := K) _ hp
  unfold double
  rw [incr seed h]
  simp only [Option.map_some]
  rcases lt_trichotomy lo hi with hl | hl | hl
  · rw [if_neg (not_lt.mpr hl.le), if_pos hl]
    have d : 0 < hi - lo := sub_pos.mpr hl
    refine ⟨_, rfl, rfl, fun _ => ⟨by ring, ?_, ?_⟩, fun hc => absurd hc hl.ne⟩
    · have := mul_pos d e1; linarith
    · have := mul_lt_mul_of_pos_left e2 d; linarith
  · subst hl
    rw [if_neg (lt_irrefl _)]
    exact ⟨_, rfl, rfl, fun hc => absurd hc (lt_irrefl _), fun _ => by rw [sub_self, zero_mul, zero_add]⟩
  · rw [if_pos hl, if_neg (not_lt.mpr hl.le)]
    exact ⟨_, rfl, rfl, fun hc => absurd hc (not_lt.mpr hl.le), fun hc => absurd hc hl.ne'⟩

private theorem whole_range (s : Nat) (hs : s < 1000) (lo hi : Int) (hl : lo ≤ hi) (hw : hi - lo + 1 ≤ 2 ^ 31 - 1) :
    ∃ v, whole s lo hi = some (v, s) ∧ lo ≤ v ∧ v ≤ hi := by
  obtain ⟨e1, e2⟩ := entry_range (K := ℚ) s hs
  unfold whole
  rw [if_neg (by unfold intMax; omega)]
  refine ⟨_, rfl, ?_, ?_⟩
  · have p : (0 : ℚ) ≤ ((hi - lo + 1 : Int) : ℚ) := by exact_mod_cast (by omega : (0 : Int) ≤ hi - lo + 1)
    have := Int.floor_nonneg.mpr (mul_nonneg e1.le p)
    omega
  · have p : (0 : ℚ) < ((hi - lo + 1 : Int) : ℚ) := by exact_mod_cast (by omega : (0 : Int) < hi - lo + 1)
    have h1 : entry s * ((hi - lo + 1 : Int) : ℚ) < ((hi - lo + 1 : Int) : ℚ) := mul_lt_of_lt_one_left p e2
    have := Int.floor_lt.mpr h1
    omega

/-- A random integer is between its limits, which both count, whichever comes first; the range of the limits must be an `int` itself. -/
theorem c105_int (seed : Int) (h : c105seed seed) (lo hi : Int) :
    (|hi - lo| + 1 ≤ 2 ^ 31 - 1 → ∃ v, int seed lo hi = some (v, c105place seed 1) ∧ min lo hi ≤ v ∧ v ≤ max lo hi)
      ∧ (2 ^ 31 - 1 < |hi - lo| + 1 → int seed lo hi = none) := by
  have hp : c105place seed 1 < 1000 := Nat.mod_lt _ (by norm_num)
  have e : int seed lo hi = if lo > hi then whole (c105place seed 1) hi lo else whole (c105place seed 1) lo hi := by
    unfold int
    rw [incr seed h]
    rfl
  rw [e]
  by_cases hl : lo > hi
  · rw [if_pos hl, min_eq_right (by omega), max_eq_left (by omega), abs_of_neg (by omega)]
    refine ⟨fun hw => whole_range _ hp hi lo (by omega) (by omega), fun hw => ?_⟩
    unfold whole
    exact if_pos (by unfold intMax; omega)
  · rw [if_neg hl, min_eq_left (by omega), max_eq_right (by omega), abs_of_nonneg (by omega)]
    refine ⟨fun hw => whole_range _ hp lo hi (by omega) (by omega), fun hw => ?_⟩
    unfold whole
    exact if_pos (by unfold intMax; omega)

/-- With one limit the other is zero, on either side of it. -/
theorem c105_int_to (seed : Int) (h : c105seed seed) (hi : Int) (hw : |hi| + 1 ≤ 2 ^ 31 - 1) :
    ∃ v, intTo seed hi = some (v, c105place seed 1) ∧ min 0 hi ≤ v ∧ v ≤ max 0 hi := by
  unfold intTo
  by_cases hz : 0 ≤ hi
  · rw [if_pos hz]
    exact (c105_int seed h 0 hi).1 (by rw [sub_zero]; exact hw)
  · rw [if_neg hz]
    obtain ⟨v, h1, h2, h3⟩ := (c105_int seed h hi 0).1 (by rw [zero_sub, abs_neg]; exact hw)
    exact ⟨v, h1, by rw [min_comm]; exact h2, by rw [max_comm]; exact h3⟩

/-- There are only a thousand results: of more integers than that between the limits some never come, with any seed. -/
theorem c105_int_missing (lo hi : Int) (hw : 1000 ≤ hi - lo) : ∃ v, lo ≤ v ∧ v ≤ hi ∧ ∀ seed r, int seed lo hi = some r → r.1 ≠ v := by
  by_contra hc
  push Not at hc
  have hsub : Finset.Icc lo hi ⊆ (Finset.range 1000).image fun s => ((whole s lo hi).map Prod.fst).getD 0 := by
    intro v hv
    rw [Finset.mem_Icc] at hv
    obtain ⟨seed, r, h1, h2⟩ := hc v hv.1 hv.2
    rw [Finset.mem_image]
    unfold int at h1
    cases hi' : incrementSeed seed with
    | none => rw [hi'] at h1; exact absurd h1 (by simp)
    | some s =>
      rw [hi', Option.bind_some, if_neg (by omega)] at h1
      refine ⟨s, ?_, by rw [h1]; exact h2⟩
      rw [Finset.mem_range]
      unfold incrementSeed at hi'
      cases hb : boundSeed seed with
      | none => rw [hb] at hi'; exact absurd hi' (by simp)
      | some b =>
        rw [hb, Option.map_some] at hi'
        have : (b + 1) % 1000 = s := Option.some.inj hi'
        omega
  have h1 := Finset.card_le_card hsub
  have h2 : ((Finset.range 1000).image fun s => ((whole s lo hi).map Prod.fst).getD 0).card ≤ 1000 := by
    refine Finset.card_image_le.trans ?_
    rw [Finset.card_range]
  rw [Int.card_Icc] at h1
  omega

/-- The value of a random double at a place of the table. -/
def c105value (lo hi : K) (k : ℕ) : K := if hi < lo then (lo - hi) * entry k + hi else (hi - lo) * entry k + lo

private theorem double_at (seed : Int) (h : c105seed seed) (lo hi : K) : double seed lo hi = some (c105value lo hi (c105place seed 1), c105place seed 1) := by
  unfold double c105value
  rw [incr seed h, Option.map_some]
  split <;> rfl

private theorem found_iff (v : K) (vs : List K) : found v vs = true ↔ ∃ w ∈ vs, |v - w| ≤ dblEps := by
  unfold found
  rw [List.any_eq_true]
  simp only [Bool.and_eq_true, decide_eq_true_eq, abs_le]
  constructor
  · rintro ⟨w, h1, h2, h3⟩; exact ⟨w, h1, by linarith, by linarith⟩
  · rintro ⟨w, h1, h2, h3⟩; exact ⟨w, h1, by linarith, by linarith⟩

private theorem place_succ (seed : Int) (n : ℕ) : c105place (c105place seed 1 : Int) n = c105place seed (n + 1) := by
  unfold c105place
  simp only [Int.natAbs_natCast]
  omega

private theorem unique_at (lo hi : K) (vs : List K) : ∀ (fuel : ℕ) (seed : Int), c105seed seed →
    (∀ m, m ≤ fuel → (∀ j < m, found (c105value lo hi (c105place seed (j + 1))) vs = true) → found (c105value lo hi (c105place seed (m + 1))) vs = false →
      unique lo hi vs fuel seed = some (c105value lo hi (c105place seed (m + 1)), c105place seed (m + 1)))
    ∧ ((∀ j ≤ fuel, found (c105value lo hi (c105place seed (j + 1))) vs = true) → unique lo hi vs fuel seed = none) := by
  intro fuel
  induction fuel with
  | zero =>
    intro seed hs
    have e : unique lo hi vs 0 seed = if found (c105value lo hi (c105place seed 1)) vs then none else some (c105value lo hi (c105place seed 1), c105place seed 1) := by
      unfold unique
      rw [double_at seed hs]
      rfl
    rw [e]
    refine ⟨fun m hm _ h2 => ?_, fun h => if_pos (h 0 le_rfl)⟩
    have : m = 0 := by omega
    subst this
    exact if_neg (by rw [h2]; decide)
  | succ fuel ih =>
    intro seed hs
    have e : unique lo hi vs (fuel + 1) seed = if found (c105value lo hi (c105place seed 1)) vs then unique lo hi vs fuel (c105place seed 1 : Int)
        else some (c105value lo hi (c105place seed 1), c105place seed 1) := by
      rw [unique, double_at seed hs]
      rfl
    have hp : c105place seed 1 < 1000 := Nat.mod_lt _ (by norm_num)
    obtain ⟨i1, i2⟩ := ih (c105place seed 1 : Int) ⟨by omega, by omega⟩
    rw [e]
    refine ⟨fun m hm h1 h2 => ?_, fun h => ?_⟩
    · cases m with
      | zero => exact if_neg (by rw [h2]; decide)
      | succ m =>
        rw [if_pos (h1 0 (by omega))]
        have := i1 m (by omega) (fun j hj => by rw [place_succ]; exact h1 (j + 1) (by omega)) (by rw [place_succ]; exact h2)
        rw [place_succ] at this
        exact this
    · rw [if_pos (h 0 (by omega))]
      exact i2 fun j hj => by rw [place_succ]; exact h (j + 1) (by omega)

/-- A unique random double is the first value of the table, from the seed on, that is none of the given ones; it is there within a thousand draws.  If each of the
thousand values is given, the call does not return. -/
theorem c105_unique (lo hi : K) (vs : List K) (seed : Int) (hs : c105seed seed) :
    ((∃ k < 1000, ∀ w ∈ vs, dblEps < |c105value lo hi k - w|) →
        ∃ m < 1000, (∀ w ∈ vs, dblEps < |c105value lo hi (c105place seed (m + 1)) - w|)
          ∧ (∀ j < m, ∃ w ∈ vs, |c105value lo hi (c105place seed (j + 1)) - w| ≤ dblEps)
          ∧ ∀ fuel, m ≤ fuel → unique lo hi vs fuel seed = some (c105value lo hi (c105place seed (m + 1)), c105place seed (m + 1)))
      ∧ ((∀ k < 1000, ∃ w ∈ vs, |c105value lo hi k - w| ≤ dblEps) → ∀ fuel, unique lo hi vs fuel seed = none) := by
  classical
  have nf : ∀ v : K, found v vs = false ↔ ∀ w ∈ vs, dblEps < |v - w| := by
    intro v
    rw [← Bool.not_eq_true, found_iff]
    push Not
    rfl
  refine ⟨fun ⟨k, hk, h⟩ => ?_, fun h fuel => ?_⟩
  · obtain ⟨m0, ⟨hm0, hm1⟩, -⟩ := (c105_cycle (K := K) seed hs).2.2.1 1 k hk
    have hex : ∃ m, found (c105value lo hi (c105place seed (m + 1))) vs = false :=
      ⟨m0, by rw [Nat.add_comm, hm1]; exact (nf _).mpr h⟩
    have hle : Nat.find hex ≤ m0 := Nat.find_le (by rw [Nat.add_comm, hm1]; exact (nf _).mpr h)
    have hmin : ∀ j < Nat.find hex, found (c105value lo hi (c105place seed (j + 1))) vs = true := by
      intro j hj
      have := Nat.find_min hex hj
      rwa [Bool.not_eq_false] at this
    refine ⟨Nat.find hex, by omega, (nf _).mp (Nat.find_spec hex), fun j hj => (found_iff _ _).mp (hmin j hj), fun fuel hf => ?_⟩
    exact (unique_at lo hi vs fuel seed hs).1 _ hf hmin (Nat.find_spec hex)
  · exact (unique_at lo hi vs fuel seed hs).2 fun j _ => (found_iff _ _).mpr (h _ (Nat.mod_lt _ (by norm_num)))

/-- With equal limits that are a given value the call does not return. -/
theorem c105_unique_stuck (x : K) (vs : List K) (hx : x ∈ vs) (seed : Int) (hs : c105seed seed) (fuel : ℕ) : unique x x vs fuel seed = none := by
  refine (c105_unique x x vs seed hs).2 (fun k _ => ⟨x, hx, ?_⟩) fuel
  unfold c105value
  rw [if_neg (lt_irrefl _), sub_self, zero_mul, zero_add, sub_self, abs_zero]
  exact dblEps_pos.le

example : c105seed (-5) ∧ c105place (-5) 1 = 6 ∧ int 0 1 6 = some (1, 1) ∧ int 0 6 1 = some (1, 1) ∧ double (0 : Int) (0 : ℚ) 10 = some (113422673894092 / 10 ^ 14, 1) := by
  refine ⟨⟨by norm_num, by norm_num⟩, ?_, ?_, ?_, ?_⟩ <;> decide +kernel

end Gunns.Props
