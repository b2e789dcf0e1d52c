import Verif.Elect.PvRegConv
import Mathlib.Tactic.Common

/-!
# The trips of the regulators of the solar array

How many can still trip, and what one call of the five does.
-/

set_option linter.unnecessarySeqFocus false

namespace Gunns.Pv

open Gunns

variable {K : Type} [Field K] [LinearOrder K]

/-- A trip that can still trip. -/
def armed (t : Sw.Trip K) : ℕ :=
  if t.tripped = false ∧ t.inhibit = false ∧ t.limit ≠ 0 ∧ 1 ≤ t.priority then 1 else 0

/-- The number of trips that can still trip. -/
def armedAll (t : RegTrips K) : ℕ := armed t.inOv + armed t.inOc + armed t.outOv + armed t.outOc + armed t.outUv

/-- A trip that has tripped and stays so. -/
def held (t : Sw.Trip K) : Bool := t.tripped && !t.inhibit

/-- What one trip can do. -/
theorem check_facts (g : Bool) (t : Sw.Trip K) (r : SolRes) (x : K) (n : ℕ) :
    ((t.check g r x n).2.2 = true → (t.check g r x n).2.1 = .reject ∧ held (t.check g r x n).1 = true ∧ armed (t.check g r x n).1 + 1 = armed t) ∧
    ((t.check g r x n).2.2 = false → ((t.check g r x n).2.1 = .reject ↔ r = .reject) ∧ held (t.check g r x n).1 = held t ∧
      armed (t.check g r x n).1 = armed t ∧ ((t.check g r x n).2.1 = .confirm → r = .confirm) ∧
      ((t.check g r x n).1.tripped = true → t.tripped = true)) := by
  obtain ⟨inh, fo, lim, pr, tr⟩ := t
  cases inh
  · cases tr
    · by_cases h1 : lim = 0 ∨ pr < 1
      · have e : Sw.Trip.check g ⟨false, fo, lim, pr, false⟩ r x n = (⟨false, fo, lim, pr, false⟩, r, false) := by
          unfold Sw.Trip.check
          rcases h1 with h1 | h1 <;> simp [h1]
        rw [e]
        simp
      · rw [not_or, not_lt] at h1
        have ar : armed ⟨false, fo, lim, pr, false⟩ = 1 := if_pos ⟨rfl, rfl, h1.1, h1.2⟩
        have ar2 : armed ⟨false, fo, lim, pr, true⟩ = 0 := if_neg (by simp)
        by_cases h2 : fo = true ∨ Sw.Trip.condition g ⟨false, fo, lim, pr, false⟩ x = true
        · by_cases h3 : fo = true ∨ n = pr
          · have e : Sw.Trip.check g ⟨false, fo, lim, pr, false⟩ r x n = (⟨false, fo, lim, pr, true⟩, .reject, true) := by
              unfold Sw.Trip.check
              simp only [Bool.false_eq_true, if_false]
              rw [if_pos (by simp [h1.1]; omega), if_pos (by simpa using h2), if_pos (by simpa using h3)]
            rw [e, ar, ar2]
            simp [held]
          · have e : Sw.Trip.check g ⟨false, fo, lim, pr, false⟩ r x n =
                (⟨false, fo, lim, pr, false⟩, if r ≠ .reject then .delay else r, false) := by
              unfold Sw.Trip.check
              simp only [Bool.false_eq_true, if_false]
              rw [if_pos (by simp [h1.1]; omega), if_pos (by simpa using h2), if_neg (by simpa using h3)]
              by_cases hr : r = .reject <;> simp [hr]
            rw [e]
            cases r <;> simp
        · have e : Sw.Trip.check g ⟨false, fo, lim, pr, false⟩ r x n = (⟨false, fo, lim, pr, false⟩, r, false) := by
            unfold Sw.Trip.check
            simp only [Bool.false_eq_true, if_false]
            rw [if_pos (by simp [h1.1]; omega), if_neg (by simpa using h2)]
          rw [e]
          simp
    · have e : Sw.Trip.check g ⟨false, fo, lim, pr, true⟩ r x n = (⟨false, fo, lim, pr, true⟩, r, false) := by
        unfold Sw.Trip.check
        simp
      rw [e]
      simp
  · have e : Sw.Trip.check g ⟨true, fo, lim, pr, tr⟩ r x n = (⟨true, fo, lim, pr, false⟩, r, false) := by
      unfold Sw.Trip.check
      simp [Sw.Trip.reset]
    rw [e]
    simp [held, armed]

/-- Some trip has tripped and stays so. -/
def heldAny (t : RegTrips K) : Bool := held t.inOv || held t.inOc || held t.outOv || held t.outOc || held t.outUv

/-- What the five trips can do. -/
theorem checkAll (t : RegTrips K) (r : SolRes) (x1 x2 x3 x4 : K) (n : ℕ) :
    ((t.check r x1 x2 x3 x4 n).2.2 = true → (t.check r x1 x2 x3 x4 n).2.1 = .reject ∧ heldAny (t.check r x1 x2 x3 x4 n).1 = true ∧
      armedAll (t.check r x1 x2 x3 x4 n).1 + 1 ≤ armedAll t) ∧
    ((t.check r x1 x2 x3 x4 n).2.2 = false → ((t.check r x1 x2 x3 x4 n).2.1 = .reject ↔ r = .reject) ∧
      heldAny (t.check r x1 x2 x3 x4 n).1 = heldAny t ∧ armedAll (t.check r x1 x2 x3 x4 n).1 = armedAll t ∧
      ((t.check r x1 x2 x3 x4 n).2.1 = .confirm → r = .confirm) ∧
      ((t.check r x1 x2 x3 x4 n).1.isTripped = true → t.isTripped = true)) := by
  unfold RegTrips.check
  simp only
  have a1 := check_facts true t.inOv r x1 n
  generalize Sw.Trip.check true t.inOv r x1 n = c1 at *
  have a2 := check_facts true t.inOc c1.2.1 x2 n
  generalize Sw.Trip.check true t.inOc c1.2.1 x2 n = c2 at *
  have a3 := check_facts true t.outOv c2.2.1 x3 n
  generalize Sw.Trip.check true t.outOv c2.2.1 x3 n = c3 at *
  have a4 := check_facts true t.outOc c3.2.1 x4 n
  generalize Sw.Trip.check true t.outOc c3.2.1 x4 n = c4 at *
  have a5 := check_facts false t.outUv c4.2.1 x3 n
  generalize Sw.Trip.check false t.outUv c4.2.1 x3 n = c5 at *
  obtain ⟨t1, r1, b1⟩ := c1
  obtain ⟨t2, r2, b2⟩ := c2
  obtain ⟨t3, r3, b3⟩ := c3
  obtain ⟨t4, r4, b4⟩ := c4
  obtain ⟨t5, r5, b5⟩ := c5
  simp only at a1 a2 a3 a4 a5 ⊢
  unfold heldAny armedAll RegTrips.isTripped
  simp only
  have n1 : armed t1 ≤ armed t.inOv ∧ (r = .reject → r1 = .reject) := by cases b1 <;> simp_all <;> omega
  have n2 : armed t2 ≤ armed t.inOc ∧ (r1 = .reject → r2 = .reject) := by cases b2 <;> simp_all <;> omega
  have n3 : armed t3 ≤ armed t.outOv ∧ (r2 = .reject → r3 = .reject) := by cases b3 <;> simp_all <;> omega
  have n4 : armed t4 ≤ armed t.outOc ∧ (r3 = .reject → r4 = .reject) := by cases b4 <;> simp_all <;> omega
  have n5 : armed t5 ≤ armed t.outUv ∧ (r4 = .reject → r5 = .reject) := by cases b5 <;> simp_all <;> omega
  constructor
  · intro h
    simp only [Bool.or_eq_true] at h
    rcases h with (((h | h) | h) | h) | h
    · obtain ⟨u1, u2, u3⟩ := a1.1 h
      exact ⟨n5.2 (n4.2 (n3.2 (n2.2 u1))), by simp [u2], by omega⟩
    · obtain ⟨u1, u2, u3⟩ := a2.1 h
      exact ⟨n5.2 (n4.2 (n3.2 u1)), by simp [u2], by omega⟩
    · obtain ⟨u1, u2, u3⟩ := a3.1 h
      exact ⟨n5.2 (n4.2 u1), by simp [u2], by omega⟩
    · obtain ⟨u1, u2, u3⟩ := a4.1 h
      exact ⟨n5.2 u1, by simp [u2], by omega⟩
    · obtain ⟨u1, u2, u3⟩ := a5.1 h
      exact ⟨u1, by simp [u2], by omega⟩
  · intro h
    simp only [Bool.or_eq_false_iff] at h
    obtain ⟨⟨⟨⟨h1, h2⟩, h3⟩, h4⟩, h5⟩ := h
    obtain ⟨p1, q1, s1, w1, z1⟩ := a1.2 h1
    obtain ⟨p2, q2, s2, w2, z2⟩ := a2.2 h2
    obtain ⟨p3, q3, s3, w3, z3⟩ := a3.2 h3
    obtain ⟨p4, q4, s4, w4, z4⟩ := a4.2 h4
    obtain ⟨p5, q5, s5, w5, z5⟩ := a5.2 h5
    refine ⟨by rw [p5, p4, p3, p2, p1], by rw [q1, q2, q3, q4, q5], by rw [s1, s2, s3, s4, s5],
      fun e => w1 (w2 (w3 (w4 (w5 e)))), ?_⟩
    simp only [Bool.or_eq_true]
    rintro ((((e | e) | e) | e) | e)
    · exact Or.inl (Or.inl (Or.inl (Or.inl (z1 e))))
    · exact Or.inl (Or.inl (Or.inl (Or.inr (z2 e))))
    · exact Or.inl (Or.inl (Or.inr (z3 e)))
    · exact Or.inl (Or.inr (z4 e))
    · exact Or.inr (z5 e)

end Gunns.Pv
