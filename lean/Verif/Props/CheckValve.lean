import Verif.Base.Loop
import Verif.Fluid.CheckValve
import Verif.Fluid.ReliefSpec
import Mathlib.Algebra.BigOperators.Group.Finset.Basic
import Mathlib.Algebra.Order.BigOperators.Group.Finset
import Mathlib.Algebra.BigOperators.Ring.Finset
import Mathlib.Data.Rat.Defs
import Mathlib.Algebra.Order.Ring.Rat
import Mathlib.Tactic.Linarith
import Mathlib.Tactic.FieldSimp
import Mathlib.Tactic.Ring
import Mathlib.Tactic.NormNum

/-!
# C65: check valves and three-way valves
-/

set_option linter.unusedSectionVars false

namespace Gunns.Props

open Gunns.FluidValve
open Gunns.FluidValve.Spec (toward)
open Gunns.Interp (limitRange)

variable {K : Type _} [Field K] [LinearOrder K] [IsStrictOrderedRing K]

/-! ## Statements -/

/-- Positions over a history of malfunctions, time steps and pressure drops. -/
def c65run (c : Check K) (m : Nat → Move K) (drop : Nat → K) (n : Nat) (y : K) : K :=
  loop (fun k y => c.step (m k) (drop k) y) n y

/-- The same for a three-way check valve. -/
def c65run3 (c : ThreeCheck K) (m : Nat → Move K) (dropA dropB : Nat → K) (n : Nat) (y : K) : K :=
  loop (fun k y => c.step (m k) (dropA k) (dropB k) y) n y

/-- No malfunction moves the valve. -/
def c65free (m : Move K) : Prop := m.stuck = false ∧ m.failTo = false

/-- The part of the valve that belongs to the path with the higher pressure, `d` above the other: half up to the
difference `least`, and all from `full` on, on a line between. -/
def c65share (least full d : K) : K := min 1 (1 / 2 + max 0 (d - least) / (2 * (full - least)))

/-! ## Lemmas -/

private theorem step_if {p : Prop} [Decidable p] {r : Bool} :
    (if p then false else r) = true ↔ ¬p ∧ r = true := by
  by_cases h : p <;> simp [h]

private theorem limit_eq {x : K} (h0 : 0 ≤ x) (h1 : x ≤ 1) : limitRange 0 x 1 = x := by
  unfold limitRange
  rw [min_eq_left h1, max_eq_left h0]

private theorem limit_mem (x : K) : 0 ≤ limitRange 0 x 1 ∧ limitRange 0 x 1 ≤ 1 := by
  unfold limitRange
  exact ⟨le_max_right _ _, max_le (min_le_right _ _) zero_le_one⟩

private theorem rate_eq {rate dt y x : K} (h0 : 0 ≤ y) (hd : 0 ≤ rate * dt) (x0 : 0 ≤ x) (x1 : x ≤ 1) :
    rateLimited rate dt y x = toward (rate * dt) y x := by
  unfold rateLimited toward limitRange
  obtain ⟨d, hdd⟩ : ∃ d, d = rate * dt := ⟨_, rfl⟩
  rw [← hdd] at hd ⊢
  show max (min x (min 1 (y + d))) (max 0 (y - d)) = _
  rw [← min_assoc, min_eq_left x1, min_comm, max_comm, max_assoc]
  exact max_eq_right (le_max_of_le_right (le_min (by linarith) x0))

private theorem rate_mem {rate dt y x : K} (h1 : y ≤ 1) (hd : 0 ≤ rate * dt) :
    0 ≤ rateLimited rate dt y x ∧ rateLimited rate dt y x ≤ 1 := by
  unfold rateLimited limitRange
  refine ⟨le_max_of_le_right (le_max_left _ _), max_le (min_le_of_right_le (min_le_left _ _)) (max_le zero_le_one ?_)⟩
  show y - rate * dt ≤ 1
  linarith

private theorem toward_down {d y x : K} (hd : 0 ≤ d) (h : x ≤ y) : toward d y x = max (y - d) x := by
  unfold toward
  rw [min_eq_right (by linarith)]

private theorem toward_up {d y x : K} (hd : 0 ≤ d) (h : y ≤ x) : toward d y x = min (y + d) x := by
  unfold toward
  exact max_eq_right (le_min (by linarith) (by linarith))

private theorem toward_comp {d e y x : K} (hd : 0 ≤ d) (he : 0 ≤ e) :
    toward e (toward d y x) x = toward (d + e) y x := by
  rcases le_total x y with h | h
  · rw [toward_down hd h, toward_down he (le_max_right _ _), toward_down (by linarith) h]
    have e1 : max (y - d) x - e = max (y - d - e) (x - e) := by
      rcases le_total (y - d) x with g | g
      · rw [max_eq_right g, max_eq_right (by linarith)]
      · rw [max_eq_left g, max_eq_left (by linarith)]
    rw [e1, max_assoc, max_eq_right (show x - e ≤ x by linarith)]
    congr 1
    ring
  · rw [toward_up hd h, toward_up he (min_le_right _ _), toward_up (by linarith) h, ← min_add_add_right, min_assoc,
      min_eq_right (show x ≤ x + e by linarith)]
    congr 1
    ring

private theorem toward_zero (y x : K) : toward 0 y x = y := by
  unfold toward
  rcases le_total x y with h | h
  · rw [sub_zero, add_zero, min_eq_right h, max_eq_left h]
  · rw [sub_zero, add_zero, min_eq_left h, max_self]

private theorem toward_mono {d y z x w : K} (h : y ≤ z) (hx : x ≤ w) : toward d y x ≤ toward d z w := by
  unfold toward
  exact max_le_max (by linarith) (min_le_min (by linarith) hx)

/-- Steps towards a fixed position. -/
private theorem toward_iter {rate : K} {dt : Nat → K} {x y : K} (f : Nat → K → K) (h0 : 0 ≤ y) (h1 : y ≤ 1)
    (hd : ∀ k, 0 ≤ rate * dt k) (x0 : 0 ≤ x) (x1 : x ≤ 1) (hf : ∀ k z, 0 ≤ z → z ≤ 1 →
      f k z = rateLimited rate (dt k) z x) (n : Nat) :
    loop f n y = toward (rate * ∑ k ∈ Finset.range n, dt k) y x ∧ 0 ≤ loop f n y ∧ loop f n y ≤ 1 := by
  induction n with
  | zero =>
    refine ⟨?_, h0, h1⟩
    show y = _
    rw [Finset.sum_range_zero, mul_zero, toward_zero]
  | succ n ih =>
    obtain ⟨a, b, c⟩ := ih
    have e : loop f (n + 1) y = rateLimited rate (dt n) (loop f n y) x := hf n _ b c
    rw [e]
    refine ⟨?_, rate_mem c (hd n)⟩
    rw [rate_eq b (hd n) x0 x1, a, toward_comp _ (hd n), Finset.sum_range_succ, mul_add]
    rw [Finset.mul_sum]
    exact Finset.sum_nonneg (fun k _ => hd k)

/-! ## Check valve -/

/-- Configuration is accepted exactly if it is in order. -/
theorem c65_accepted :
    (∀ (c : Check K) (y f : K), c.valid y f = true ↔
      (0 ≤ y ∧ y ≤ 1) ∧ 0 ≤ c.rate ∧ c.shut ≤ c.full ∧ 0 ≤ f ∧ f ≤ 1) ∧
    (∀ (c : Three K) (y : K), c.valid y = true ↔ (0 ≤ c.band ∧ c.band ≤ 1 - dblEps) ∧ 0 ≤ y ∧ y ≤ 1) ∧
    ∀ (c : ThreeCheck K) (y f : K), c.valid y f = true ↔
      (0 ≤ y ∧ y ≤ 1) ∧ 0 ≤ c.rate ∧ (c.minDiff + dblEps < c.fullA ∧ c.minDiff + dblEps < c.fullB) ∧
        0 ≤ f ∧ f ≤ 1 := by
  refine ⟨?_, ?_, ?_⟩
  · intro c y f
    unfold Check.valid
    simp only [step_if, not_lt, not_not, and_true]
  · intro c y
    unfold Three.valid
    simp only [step_if, not_not, and_true]
  · intro c y f
    unfold ThreeCheck.valid
    simp only [step_if, not_lt, not_not, and_true, not_or, not_le, lt_sub_iff_add_lt, add_comm dblEps]

/-- Where a check valve goes to: shut up to the close pressure, fully open from the open pressure on, on a line between
them, without division by zero; a higher pressure drop never closes it. -/
theorem c65_ramp (c : Check K) :
    (∀ p, c.full ≤ p → c.target p = 1) ∧ (∀ p, p ≤ c.shut → p < c.full → c.target p = 0) ∧
    (∀ p, c.shut < p → p < c.full → c.target p * (c.full - c.shut) = p - c.shut ∧ c.full - c.shut ≠ 0) ∧
    (∀ p, 0 ≤ c.target p ∧ c.target p ≤ 1) ∧ ∀ p q, p ≤ q → c.target p ≤ c.target q := by
  have r1 : ∀ p, c.full ≤ p → c.target p = 1 := fun p hp => if_pos hp
  have r2 : ∀ p, p ≤ c.shut → p < c.full → c.target p = 0 := by
    intro p hp hq
    unfold Check.target
    rw [if_neg (not_le.2 hq), if_pos hp]
  have r3 : ∀ p, c.shut < p → p < c.full → c.target p = (p - c.shut) / (c.full - c.shut) := by
    intro p hp hq
    unfold Check.target
    rw [if_neg (not_le.2 hq), if_neg (not_le.2 hp)]
  have r4 : ∀ p, 0 ≤ c.target p ∧ c.target p ≤ 1 := by
    intro p
    by_cases a : c.full ≤ p
    · rw [r1 p a]
      exact ⟨zero_le_one, le_refl _⟩
    · by_cases b : p ≤ c.shut
      · rw [r2 p b (not_le.1 a)]
        exact ⟨le_refl _, zero_le_one⟩
      · have a := not_le.1 a
        have b := not_le.1 b
        rw [r3 p b a]
        exact ⟨div_nonneg (by linarith) (by linarith), by rw [div_le_one (by linarith)]; linarith⟩
  refine ⟨r1, r2, ?_, r4, ?_⟩
  · intro p hp hq
    rw [r3 p hp hq]
    have : c.full - c.shut ≠ 0 := by
      intro e
      linarith
    exact ⟨div_mul_cancel₀ _ this, this⟩
  · intro p q hpq
    by_cases a : c.full ≤ q
    · rw [r1 q a]
      exact (r4 p).2
    · have a := not_le.1 a
      by_cases b : p ≤ c.shut
      · rw [r2 p b (by linarith)]
        exact (r4 q).1
      · have b := not_le.1 b
        rw [r3 p b (by linarith), r3 q (by linarith) a]
        exact div_le_div_of_nonneg_right (by linarith) (by linarith)

/-- A free step goes towards this position as far as the rate limit lets it; a stuck valve does not move; one that fails
to a position is there. -/
theorem c65_step (c : Check K) (m : Move K) (p y : K) (hd : 0 ≤ c.rate * m.dt) (h0 : 0 ≤ y) :
    (c65free m → c.step m p y = toward (c.rate * m.dt) y (c.target p)) ∧ (m.stuck = true → c.step m p y = y) ∧
    (m.stuck = false → m.failTo = true → 0 ≤ m.failValue → m.failValue ≤ 1 → c.step m p y = m.failValue) := by
  unfold Check.step
  refine ⟨?_, ?_, ?_⟩
  · intro hf
    rw [hf.1, hf.2]
    simp only [Bool.false_eq_true, if_false]
    exact rate_eq h0 hd ((c65_ramp c).2.2.2.1 p).1 ((c65_ramp c).2.2.2.1 p).2
  · intro hs
    rw [if_pos hs]
  · intro hs hf f0 f1
    rw [hs, if_pos hf]
    simp only [Bool.false_eq_true, if_false]
    exact limit_eq f0 f1

/-- The position never leaves 0 to 1, whatever the malfunctions. -/
theorem c65_range (c : Check K) (m : Nat → Move K) (hd : ∀ k, 0 ≤ c.rate * (m k).dt) (p : Nat → K) (y : K)
    (h0 : 0 ≤ y) (h1 : y ≤ 1) (n : Nat) : 0 ≤ c65run c m p n y ∧ c65run c m p n y ≤ 1 := by
  refine loop_inv (fun _ z => 0 ≤ z ∧ z ≤ 1) n ⟨h0, h1⟩ ?_
  intro k _ z hz
  unfold Check.step
  split_ifs
  · exact hz
  · exact limit_mem _
  · exact rate_mem hz.2 (hd k)

/-- With the pressure drop held, a free valve goes straight to the position of this drop and stays: against the flow,
with the drop at most the close pressure, it is shut once the time is enough for the way. -/
theorem c65_settles (c : Check K) (m : Nat → Move K) (hm : ∀ k, c65free (m k))
    (hd : ∀ k, 0 ≤ c.rate * (m k).dt) (p y : K) (h0 : 0 ≤ y) (h1 : y ≤ 1) (n : Nat) :
    c65run c m (fun _ => p) n y = toward (c.rate * ∑ k ∈ Finset.range n, (m k).dt) y (c.target p) ∧
    (p ≤ c.shut → p < c.full → y ≤ c.rate * ∑ k ∈ Finset.range n, (m k).dt →
      c65run c m (fun _ => p) n y = 0) := by
  have e := (toward_iter (rate := c.rate) (dt := fun k => (m k).dt) (x := c.target p)
    (fun k y => c.step (m k) p y) h0 h1 hd ((c65_ramp c).2.2.2.1 p).1 ((c65_ramp c).2.2.2.1 p).2 (by
      intro k z hz0 hz1
      rw [(c65_step c (m k) p z (hd k) hz0).1 (hm k)]
      exact (rate_eq hz0 (hd k) ((c65_ramp c).2.2.2.1 p).1 ((c65_ramp c).2.2.2.1 p).2).symm) n).1
  refine ⟨e, ?_⟩
  intro a b d
  refine Eq.trans e ?_
  rw [(c65_ramp c).2.1 p a b, toward_down (h0.trans d) h0]
  exact max_eq_right (by linarith)

/-- More pressure drop at all times and a more open start never leave a free valve less open. -/
theorem c65_monotone (c : Check K) (m : Nat → Move K) (hm : ∀ k, c65free (m k))
    (hd : ∀ k, 0 ≤ c.rate * (m k).dt) (p q : Nat → K) (hpq : ∀ k, p k ≤ q k) (y z : K) (h0 : 0 ≤ y) (hyz : y ≤ z)
    (h1 : z ≤ 1) (n : Nat) : c65run c m p n y ≤ c65run c m q n z := by
  induction n with
  | zero => exact hyz
  | succ n ih =>
    have a := c65_range c m hd p y h0 (hyz.trans h1) n
    have b := c65_range c m hd q z (h0.trans hyz) h1 n
    show c.step (m n) (p n) (c65run c m p n y) ≤ c.step (m n) (q n) (c65run c m q n z)
    rw [(c65_step c (m n) _ _ (hd n) a.1).1 (hm n), (c65_step c (m n) _ _ (hd n) b.1).1 (hm n)]
    exact toward_mono ih ((c65_ramp c).2.2.2.2 _ _ (hpq n))

/-! ## Three-way valve -/

/-- The two paths of a three-way valve: positions from 0 to 1, that add up to 1 without a non-mixing band; with one, the
paths are never both open, and both are shut exactly while the position is in the band around the middle. At the ends one
path is fully open and the other shut, and between they open on lines. The flag swaps the paths. -/
theorem c65_paths (band y : K) (hb : 0 ≤ band) (hb1 : band ≤ 1 - 2 * dblEps) (h0 : 0 ≤ y) (h1 : y ≤ 1) (a b : K)
    (hab : Three.paths ⟨false, band⟩ y = (a, b)) :
    (0 ≤ a ∧ a ≤ 1 ∧ 0 ≤ b ∧ b ≤ 1) ∧ (band = 0 → a = y ∧ a + b = 1) ∧
    (0 < band → (a = 0 ∨ b = 0) ∧ (a = 0 ∧ b = 0 ↔ |y - 1 / 2| ≤ band / 2)) ∧
    (a = 1 ↔ y = 1) ∧ (b = 1 ↔ y = 0) ∧
    (0 < band → (1 + band) / 2 ≤ y → a * ((1 - band) / 2) = y - (1 + band) / 2) ∧
    (0 < band → y ≤ (1 - band) / 2 → b * ((1 - band) / 2) = (1 - band) / 2 - y) ∧
    Three.paths ⟨true, band⟩ y = (b, a) := by
  have e : (0 : K) < dblEps := dblEps_pos
  obtain ⟨w, hw⟩ : ∃ w, w = (1 - band) / 2 := ⟨_, rfl⟩
  have hwm : max dblEps (1 / 2 - 1 / 2 * band) = w := by
    rw [hw, max_eq_right (by linarith)]
    ring
  have hwp : 0 < w := by rw [hw]; linarith
  have hw2 : w ≤ 1 / 2 := by rw [hw]; linarith
  by_cases hb0 : band > 0
  · have ea : a = max 0 ((y - (1 - w)) / w) := by
      unfold Three.paths at hab
      simp only [if_pos hb0, hwm, Bool.false_eq_true, if_false, Prod.mk.injEq] at hab
      exact hab.1.symm
    have eb : b = max 0 ((w - y) / w) := by
      unfold Three.paths at hab
      simp only [if_pos hb0, hwm, Bool.false_eq_true, if_false, Prod.mk.injEq] at hab
      exact hab.2.symm
    have hsw : Three.paths ⟨true, band⟩ y = (b, a) := by
      unfold Three.paths
      simp only [if_pos hb0, hwm, if_true]
      rw [ea, eb]
    have a1 : a ≤ 1 := by
      rw [ea]
      refine max_le zero_le_one ?_
      rw [div_le_one hwp]
      linarith
    have b1 : b ≤ 1 := by
      rw [eb]
      refine max_le zero_le_one ?_
      rw [div_le_one hwp]
      linarith
    have a0 : a = 0 ↔ y ≤ 1 - w := by
      rw [ea, max_eq_left_iff, div_le_iff₀ hwp]
      constructor <;> intro <;> linarith
    have b0 : b = 0 ↔ w ≤ y := by
      rw [eb, max_eq_left_iff, div_le_iff₀ hwp]
      constructor <;> intro <;> linarith
    have la : 1 - w ≤ y → a * w = y - (1 - w) := by
      intro hy
      rw [ea, max_eq_right (div_nonneg (by linarith) hwp.le), div_mul_cancel₀ _ hwp.ne']
    have lb : y ≤ w → b * w = w - y := by
      intro hy
      rw [eb, max_eq_right (div_nonneg (by linarith) hwp.le), div_mul_cancel₀ _ hwp.ne']
    have hw1 : (1 + band) / 2 = 1 - w := by rw [hw]; ring
    rw [hw1, ← hw]
    refine ⟨⟨ea ▸ le_max_left _ _, a1, eb ▸ le_max_left _ _, b1⟩, fun h => absurd h hb0.ne', fun _ => ⟨?_, ?_⟩, ?_, ?_,
      fun _ => la, fun _ => lb, hsw⟩
    · by_cases hy : w ≤ y
      · exact .inr (b0.2 hy)
      · exact .inl (a0.2 (by linarith))
    · rw [a0, b0, abs_le]
      constructor
      · rintro ⟨h, g⟩
        exact ⟨by linarith, by linarith⟩
      · rintro ⟨h, g⟩
        exact ⟨by linarith, by linarith⟩
    · constructor
      · intro ha
        by_cases hy : 1 - w ≤ y
        · have := la hy
          rw [ha] at this
          linarith
        · rw [a0.2 (by linarith)] at ha
          exact absurd ha zero_ne_one
      · intro hy
        have := la (by linarith)
        rw [hy] at this
        have h2 : a * w = 1 * w := by linarith
        exact mul_right_cancel₀ hwp.ne' h2
    · constructor
      · intro ha
        by_cases hy : y ≤ w
        · have := lb hy
          rw [ha] at this
          linarith
        · rw [b0.2 (by linarith)] at ha
          exact absurd ha zero_ne_one
      · intro hy
        have := lb (by linarith)
        rw [hy] at this
        have h2 : b * w = 1 * w := by linarith
        exact mul_right_cancel₀ hwp.ne' h2
  · have hz : band = 0 := le_antisymm (not_lt.1 hb0) hb
    have ea : a = y := by
      unfold Three.paths at hab
      simp only [if_neg hb0, Bool.false_eq_true, if_false, Prod.mk.injEq] at hab
      exact hab.1.symm
    have eb : b = 1 - y := by
      unfold Three.paths at hab
      simp only [if_neg hb0, Bool.false_eq_true, if_false, Prod.mk.injEq] at hab
      exact hab.2.symm
    have hsw : Three.paths ⟨true, band⟩ y = (b, a) := by
      unfold Three.paths
      simp only [if_neg hb0, if_true]
      rw [ea, eb]
    refine ⟨⟨by linarith, by linarith, by linarith, by linarith⟩, fun _ => ⟨ea, by linarith⟩, fun h => absurd h hb0, ?_, ?_,
      ?_, ?_, hsw⟩
    · rw [ea]
    · rw [eb]
      constructor <;> intro <;> linarith
    · exact fun h => absurd h hb0
    · exact fun h => absurd h hb0

/-! ## Three-way check valve -/

private theorem target3_mem (c : ThreeCheck K) (pA pB y : K) (h0 : 0 ≤ y) (h1 : y ≤ 1) :
    0 ≤ c.target pA pB y ∧ c.target pA pB y ≤ 1 := by
  unfold ThreeCheck.target
  have half : (0 : K) ≤ 1 / 2 := by norm_num
  have half1 : (1 / 2 : K) ≤ 1 := by norm_num
  have key : ∀ x : K, 0 ≤ x → x ≤ 1 → 0 ≤ (if c.pathB then 1 - x else x) ∧ (if c.pathB then 1 - x else x) ≤ 1 := by
    intro x a b
    split_ifs
    · exact ⟨by linarith, by linarith⟩
    · exact ⟨a, b⟩
  split_ifs with h2
  · exact ⟨h0, h1⟩
  all_goals first
    | exact ⟨by linarith, by linarith⟩
    | (unfold limitRange
       constructor
       · first
         | (have := le_max_right (min (1 / 2 * (1 + (pA - pB - c.minDiff) / (c.fullA - c.minDiff))) 1) (1 / 2); linarith)
         | (have := min_le_left (1 : K) 1
            exact sub_nonneg.2 (max_le (min_le_right _ _) half1))
         | exact sub_nonneg.2 (max_le ((min_le_right _ _).trans half1) zero_le_one)
         | exact le_max_right _ _
       · first
         | exact max_le (min_le_right _ _) half1
         | exact max_le ((min_le_right _ _).trans half1) zero_le_one
         | (have := le_max_right (min (1 / 2 * (1 + (pA - pB - c.minDiff) / (c.fullA - c.minDiff))) 1) (1 / 2); linarith)
         | (have := le_max_right (min (1 / 2 * (1 - (pB - pA - c.minDiff) / (c.fullA - c.minDiff))) (1 / 2)) 0; linarith))

/-- Position and path openings stay from 0 to 1 and add up to 1, whatever the malfunctions. -/
theorem c65_three_range (c : ThreeCheck K) (m : Nat → Move K) (hd : ∀ k, 0 ≤ c.rate * (m k).dt) (pA pB : Nat → K)
    (y : K) (h0 : 0 ≤ y) (h1 : y ≤ 1) (n : Nat) (a b : K) (hab : c.paths (c65run3 c m pA pB n y) = (a, b)) :
    0 ≤ a ∧ 0 ≤ b ∧ a + b = 1 := by
  have r : 0 ≤ c65run3 c m pA pB n y ∧ c65run3 c m pA pB n y ≤ 1 := by
    refine loop_inv (fun _ z => 0 ≤ z ∧ z ≤ 1) n ⟨h0, h1⟩ ?_
    intro k _ z hz
    unfold ThreeCheck.step
    split_ifs
    · exact hz
    · exact limit_mem _
    · exact rate_mem hz.2 (hd k)
  unfold ThreeCheck.paths Three.paths at hab
  simp only [gt_iff_lt, lt_irrefl, if_false] at hab
  cases hc : c.pathB
  · rw [hc] at hab
    simp only [Bool.false_eq_true, if_false, Prod.mk.injEq] at hab
    exact ⟨by linarith, by linarith, by linarith⟩
  · rw [hc] at hab
    simp only [if_true, Prod.mk.injEq] at hab
    exact ⟨by linarith, by linarith, by linarith⟩

/-- A free step goes towards a target as far as the rate limit lets it; with the drops held, and not both negative nor
equal without a minimum difference, the valve goes straight to the target and stays. -/
theorem c65_three_settles (c : ThreeCheck K) (m : Nat → Move K) (hm : ∀ k, c65free (m k))
    (hd : ∀ k, 0 ≤ c.rate * (m k).dt) (pA pB y : K) (h0 : 0 ≤ y) (h1 : y ≤ 1) (hn : 0 ≤ pA ∨ 0 ≤ pB)
    (he : 0 < c.minDiff ∨ pA ≠ pB) (n : Nat) :
    c65run3 c m (fun _ => pA) (fun _ => pB) n y =
      toward (c.rate * ∑ k ∈ Finset.range n, (m k).dt) y (c.target pA pB y) := by
  have hc : ∀ z, c.target pA pB z = c.target pA pB y := by
    intro z
    have h2 : ¬(pA < 0 ∧ pB < 0) := by
      rintro ⟨a, b⟩
      rcases hn with h | h <;> linarith
    unfold ThreeCheck.target
    simp only [if_neg h2]
    by_cases a : |pA - pB| < c.minDiff
    · simp only [if_pos a]
    · simp only [if_neg a]
      rcases lt_trichotomy pA pB with b | b | b
      · simp only [show ¬(pA > pB) from not_lt.2 b.le, if_false, show pB > pA from b, if_true]
      · rcases he with h | h
        · rw [b, sub_self, abs_zero] at a
          exact absurd h a
        · exact absurd b h
      · simp only [show pA > pB from b, if_true]
  have mem := target3_mem c pA pB y h0 h1
  exact (toward_iter (rate := c.rate) (dt := fun k => (m k).dt) (x := c.target pA pB y)
    (fun k y => c.step (m k) pA pB y) h0 h1 hd mem.1 mem.2 (by
      intro k z _ _
      show c.step (m k) pA pB z = _
      unfold ThreeCheck.step
      rw [(hm k).1, (hm k).2]
      simp only [Bool.false_eq_true, if_false]
      rw [hc z]) n).1

/-- The target: with both drops negative the valve holds; otherwise the path with the higher drop has its share, at least
half, all of the valve from its open pressure on. For path B this is so only with equal open pressures. -/
theorem c65_three_target (c : ThreeCheck K) (hA : c.minDiff + dblEps < c.fullA) (hB : c.fullB = c.fullA)
    (pA pB y a b : K) (hab : c.paths (c.target pA pB y) = (a, b)) :
    (pA < 0 → pB < 0 → c.paths y = (a, b)) ∧
    (0 ≤ pA → pB < pA → a = c65share c.minDiff c.fullA (pA - pB)) ∧
    (0 ≤ pB → pA < pB → b = c65share c.minDiff c.fullB (pB - pA)) ∧
    (0 ≤ pA → pA = pB → 0 < c.minDiff → a = 1 / 2) := by
  have e : (0 : K) < dblEps := dblEps_pos
  have hp : 0 < c.fullA - c.minDiff := by linarith
  have two : (0 : K) < 2 := by norm_num
  have paths : ∀ x, c.paths x = if c.pathB then (1 - x, x) else (x, 1 - x) := by
    intro x
    unfold ThreeCheck.paths Three.paths
    simp only [gt_iff_lt, lt_irrefl, if_false]
  have pick : ∀ x, c.target pA pB y = (if c.pathB then 1 - x else x) → a = x ∧ b = 1 - x := by
    intro x hx
    rw [paths, hx] at hab
    cases hc : c.pathB
    · rw [hc] at hab
      simp only [Bool.false_eq_true, if_false, Prod.mk.injEq] at hab
      exact ⟨hab.1.symm, hab.2.symm⟩
    · rw [hc] at hab
      simp only [if_true, Prod.mk.injEq] at hab
      exact ⟨by linarith, by linarith⟩
  have near : ∀ d, d < c.minDiff → c65share c.minDiff c.fullA d = 1 / 2 := by
    intro d hd
    unfold c65share
    rw [max_eq_left (by linarith), zero_div, add_zero]
    exact min_eq_right (by norm_num)
  have far : ∀ d, c.minDiff ≤ d → c65share c.minDiff c.fullA d =
      min 1 (1 / 2 * (1 + (d - c.minDiff) / (c.fullA - c.minDiff))) := by
    intro d hd
    unfold c65share
    rw [max_eq_right (by linarith)]
    congr 1
    have := hp.ne'
    field_simp
  refine ⟨?_, ?_, ?_, ?_⟩
  · intro h1 h2
    rw [← hab]
    unfold ThreeCheck.target
    rw [if_pos ⟨h1, h2⟩]
  · intro h1 h2
    have hn : ¬(pA < 0 ∧ pB < 0) := fun h => by linarith [h.1]
    have ab : |pA - pB| = pA - pB := abs_of_pos (by linarith)
    by_cases g : pA - pB < c.minDiff
    · rw [near _ g]
      refine (pick _ ?_).1
      unfold ThreeCheck.target
      simp only [if_neg hn, ab, if_pos g]
    · have gl := not_lt.1 g
      rw [far _ gl]
      have q : 0 ≤ (pA - pB - c.minDiff) / (c.fullA - c.minDiff) := div_nonneg (by linarith) hp.le
      refine (pick _ ?_).1
      unfold ThreeCheck.target
      simp only [if_neg hn, ab, if_neg g, show pA > pB from h2, if_true]
      have : limitRange (1 / 2) (1 / 2 * (1 + (pA - pB - c.minDiff) / (c.fullA - c.minDiff))) 1 =
          min 1 (1 / 2 * (1 + (pA - pB - c.minDiff) / (c.fullA - c.minDiff))) := by
        unfold limitRange
        rw [min_comm, max_eq_left]
        exact le_min (by norm_num) (by linarith)
      rw [this]
  · intro h1 h2
    rw [hB]
    have hn : ¬(pA < 0 ∧ pB < 0) := fun h => by linarith [h.2]
    have ab : |pA - pB| = pB - pA := by rw [abs_sub_comm]; exact abs_of_pos (by linarith)
    by_cases g : pB - pA < c.minDiff
    · rw [near _ g]
      have := (pick (1 / 2) (by
        unfold ThreeCheck.target
        simp only [if_neg hn, ab, if_pos g])).2
      rw [this]
      norm_num
    · have gl := not_lt.1 g
      rw [far _ gl]
      have q : 0 ≤ (pB - pA - c.minDiff) / (c.fullA - c.minDiff) := div_nonneg (by linarith) hp.le
      have := (pick (1 - min 1 (1 / 2 * (1 + (pB - pA - c.minDiff) / (c.fullA - c.minDiff)))) (by
        unfold ThreeCheck.target
        simp only [if_neg hn, ab, if_neg g, show ¬(pA > pB) from not_lt.2 h2.le, if_false, show pB > pA from h2,
          if_true]
        have : limitRange 0 (1 / 2 * (1 - (pB - pA - c.minDiff) / (c.fullA - c.minDiff))) (1 / 2) =
            1 - min 1 (1 / 2 * (1 + (pB - pA - c.minDiff) / (c.fullA - c.minDiff))) := by
          unfold limitRange
          rw [min_eq_left (by linarith)]
          rcases le_total 1 (1 / 2 * (1 + (pB - pA - c.minDiff) / (c.fullA - c.minDiff))) with u | u
          · rw [min_eq_left u, max_eq_right (by linarith)]
            ring
          · rw [min_eq_right u, max_eq_left (by linarith)]
            ring
        rw [this])).2
      rw [this]
      ring
  · intro h1 h2 h3
    have hn : ¬(pA < 0 ∧ pB < 0) := fun h => by linarith [h.1]
    have g : |pA - pB| < c.minDiff := by rw [h2, sub_self, abs_zero]; exact h3
    refine (pick _ ?_).1
    unfold ThreeCheck.target
    simp only [if_neg hn, if_pos g]

/-- The open pressure of path B is not used: any other gives the same positions, so path B is fully open from the open
pressure of path A on. -/
theorem c65_open_b_unused (c : ThreeCheck K) (fullB : K) (m : Nat → Move K) (pA pB : Nat → K) (n : Nat) (y : K) :
    c65run3 { c with
      fullB := fullB } m pA pB n y = c65run3 c m pA pB n y := rfl

/-- With the default minimum difference of 0 and the position measured on path B, equal drops turn the valve over in every
step that is long enough. -/
theorem c65_flips (c : ThreeCheck K) (hb : c.pathB = true) (hmin : c.minDiff = 0) (m : Nat → Move K)
    (hm : ∀ k, c65free (m k)) (hd : ∀ k, 1 ≤ c.rate * (m k).dt) (p : Nat → K) (hp : ∀ k, 0 ≤ p k) (y : K) (h0 : 0 ≤ y)
    (h1 : y ≤ 1) (n : Nat) : c65run3 c m p p n y = if n % 2 = 0 then y else 1 - y := by
  have one : ∀ k z, 0 ≤ z → z ≤ 1 → c.step (m k) (p k) (p k) z = 1 - z := by
    intro k z z0 z1
    have ht : c.target (p k) (p k) z = 1 - z := by
      unfold ThreeCheck.target
      have hn : ¬(p k < 0 ∧ p k < 0) := fun h => by linarith [h.1, hp k]
      have hg : ¬(|p k - p k| < c.minDiff) := by rw [hmin, sub_self, abs_zero]; exact lt_irrefl _
      simp only [if_neg hn, if_neg hg, gt_iff_lt, lt_irrefl, if_false, hb, if_true]
    unfold ThreeCheck.step
    rw [(hm k).1, (hm k).2]
    simp only [Bool.false_eq_true, if_false]
    have d := hd k
    rw [ht, rate_eq z0 (by linarith) (by linarith) (by linarith)]
    unfold toward
    rw [min_eq_right (by linarith), max_eq_right (by linarith)]
  induction n with
  | zero => rfl
  | succ n ih =>
    show c.step (m n) (p n) (p n) (c65run3 c m p p n y) = _
    rw [ih]
    by_cases h : n % 2 = 0
    · rw [if_pos h, if_neg (by omega), one n y h0 h1]
    · rw [if_neg h, if_pos (by omega), one n (1 - y) (by linarith) (by linarith)]
      ring

/-! ## Cases -/

/-- A check valve that opens from 1 to 3 kPa at half its way per second. -/
private instance (m : Move ℚ) : Decidable (c65free m) := by unfold c65free; infer_instance
private def exC : Check ℚ := ⟨1 / 2, 1, 3⟩
private def exM : Move ℚ := ⟨false, false, 0, 1 / 2⟩
private def ex3 : ThreeCheck ℚ := ⟨true, 2, 4, 10, 0⟩

example : exC.valid 1 0 = true ∧ c65free exM ∧ 0 ≤ exC.rate * exM.dt ∧ exC.shut ≤ exC.full := by decide +kernel

/-- Open and the flow reversed, it is shut after four steps. -/
example : (List.range 6).map (fun n => c65run exC (fun _ => exM) (fun _ => -5) n 1) =
    [1, 3 / 4, 1 / 2, 1 / 4, 0, 0] := by decide +kernel

example : Three.paths ⟨false, (1 / 5 : ℚ)⟩ (4 / 5) = (1 / 2, 0) ∧ Three.paths ⟨false, (1 / 5 : ℚ)⟩ (9 / 20) = (0, 0) ∧
    (1 / 5 : ℚ) ≤ 1 - 2 * dblEps := by decide +kernel

/-- Path B with 4 kPa more than path A is fully open although its open pressure is 10 kPa. -/
example : ex3.valid 0 0 = true ∧ ex3.paths (ex3.target 0 4 0) = (0, 1) ∧ c65share 0 10 4 = (7 / 10 : ℚ) := by
  decide +kernel

/-- Equal drops turn the valve over. -/
example : (List.range 4).map (fun n => c65run3 ex3 (fun _ => exM) (fun _ => 2) (fun _ => 2) n 1) = [1, 0, 1, 0] := by
  decide +kernel

example : c65run3 { ex3 with
    minDiff := 1
    fullB := 4 } (fun _ => exM) (fun _ => 2) (fun _ => 0) 3 1 = 1 / 3 := by
  decide +kernel

end Gunns.Props
