import Verif.Fluid.Balloon
import Mathlib.Tactic.Linarith
import Mathlib.Tactic.FieldSimp
import Mathlib.Tactic.Ring
import Mathlib.Tactic.NormNum
import Mathlib.Tactic.LinearCombination

/-!
# C88: a balloon's volume, and the pressure that fits it

The volume stays between its limits whatever is done, follows the pressure, and does not move when stuck.  Edits of volume and pressure
fit each other.  The correction of the pressure makes pressure and volume fit the contents of an ideal gas.
-/

namespace Gunns.Props

open Gunns Gunns.Balloon
open Gunns.Interp (limitRange)

set_option linter.unusedSectionVars false

section volume

variable {K : Type*} [Field K] [LinearOrder K] [IsStrictOrderedRing K]

private theorem min_pos : (0 : K) < minVolume := by unfold minVolume; positivity

private theorem span (c : Config K) (hc : c.Valid) : (0 : K) < c.maxVolume - minVolume := by
  have := hc.2
  have h := fltEps_pos (K := K)
  linarith

private theorem actual_pos (c : Config K) (q : Pass K) : 0 < actual c q := by
  unfold actual
  cases q.scale with
  | none => exact lt_of_lt_of_le dblEps_pos (le_max_right _ _)
  | some x => exact lt_of_lt_of_le dblEps_pos (le_max_right _ _)

private theorem limited (c : Config K) (hc : c.Valid) (x : K) :
    minVolume ≤ limitRange minVolume x c.maxVolume ∧ limitRange minVolume x c.maxVolume ≤ c.maxVolume ∧
      (minVolume ≤ x → x ≤ c.maxVolume → limitRange minVolume x c.maxVolume = x) := by
  have h := span c hc
  unfold limitRange
  refine ⟨le_max_right _ _, max_le (min_le_right _ _) (by linarith), fun h1 h2 => ?_⟩
  rw [min_eq_left h2, max_eq_left h1]

/-- A balloon within its limits. -/
def c88Sound (c : Config K) (s : State K) : Prop :=
  0 ≤ s.inflation ∧ s.inflation ≤ 1 ∧ minVolume ≤ s.volume ∧ s.volume ≤ c.maxVolume

private theorem sound_apply (c : Config K) (hc : c.Valid) (s : State K) (hs : c88Sound c s) (o : Op K) : c88Sound c (apply c s o) := by
  obtain ⟨h1, h2, h3, h4⟩ := hs
  have hsp := span c hc
  have hedit : ∀ v, c88Sound c (editVolume c v s) := by
    intro v
    unfold editVolume
    refine ⟨h1, h2, ?_, ?_⟩ <;> simp only
    · split
      · exact le_refl _
      · split
        · linarith
        · linarith
    · split
      · linarith
      · split
        · exact le_refl _
        · linarith
  cases o with
  | volume v => exact hedit v
  | pressure q p => exact hedit _
  | pass q =>
    unfold apply inflate
    by_cases hq : q.stuck = true
    · refine ⟨?_, ?_, ?_, ?_⟩ <;> simp only [hq, if_true]
      · exact h1
      · exact h2
      · nlinarith
      · nlinarith
    · obtain ⟨l1, l2, -⟩ := limited c hc (actual c q * (q.p0 - q.p1))
      have hv : fromPressure c q q.p0 = limitRange minVolume (actual c q * (q.p0 - q.p1)) c.maxVolume := rfl
      refine ⟨?_, ?_, ?_, ?_⟩ <;> simp only [hq, if_false, Bool.false_eq_true, hv]
      · exact div_nonneg (by linarith) hsp.le
      · rw [div_le_one hsp]; linarith
      · exact l1
      · exact l2

/-- **Within the limits, for ever**: whatever passes and edits there are, with whatever pressures and malfunctions, the volume is between
the least and the greatest and the inflation between 0 and 1. -/
theorem c88_limits (c : Config K) (hc : c.Valid) (ops : List (Op K)) (s : State K) (hs : c88Sound c s) :
    c88Sound c (run c ops s) := by
  unfold run
  induction ops generalizing s with
  | nil => exact hs
  | cons o t ih => exact ih _ (sound_apply c hc s hs o)

/-- **The volume follows the pressure**: after a pass with a free wall it is the inflatability times the pressure difference where that is
within the limits, else the nearer limit; the inflation is its part of the range; a higher pressure inside never makes it smaller. -/
theorem c88_volume (c : Config K) (hc : c.Valid) (q : Pass K) (s : State K) (hq : q.stuck = false) :
    (inflate c q s).volume = max minVolume (min c.maxVolume (actual c q * (q.p0 - q.p1))) ∧
      (inflate c q s).volume = minVolume + (inflate c q s).inflation * (c.maxVolume - minVolume) ∧
      (∀ p, q.p0 ≤ p → (inflate c q s).volume ≤ (inflate c { q with p0 := p } s).volume) := by
  have hsp := span c hc
  refine ⟨?_, ?_, ?_⟩
  · simp only [inflate, hq, Bool.false_eq_true, if_false, fromPressure, limitRange]
    rw [max_comm, min_comm]
  · simp only [inflate, hq, Bool.false_eq_true, if_false]
    rw [div_mul_cancel₀ _ hsp.ne']; ring
  · intro p hp
    simp only [inflate, hq, Bool.false_eq_true, if_false, fromPressure, limitRange]
    have : actual c q * (q.p0 - q.p1) ≤ actual c q * (p - q.p1) :=
      mul_le_mul_of_nonneg_left (by linarith) (actual_pos c q).le
    exact max_le_max (min_le_min this (le_refl _)) (le_refl _)

/-- **Stuck**: however many passes there are with a stuck wall, at whatever pressures, the volume is that of the inflation it got stuck
at, and the inflation does not change. -/
theorem c88_stuck (c : Config K) (hc : c.Valid) (free : Pass K) (qs : List (Pass K)) (s : State K) (hf : free.stuck = false)
    (hq : ∀ q ∈ qs, q.stuck = true) :
    (run c (qs.map Op.pass) (inflate c free s)).volume = (inflate c free s).volume ∧
      (run c (qs.map Op.pass) (inflate c free s)).inflation = (inflate c free s).inflation := by
  have hv := (c88_volume c hc free s hf).2.1
  generalize inflate c free s = t at hv
  induction qs generalizing t with
  | nil => exact ⟨rfl, rfl⟩
  | cons q r ih =>
    have h1 : (inflate c q t).volume = t.volume ∧ (inflate c q t).inflation = t.inflation := by
      simp only [inflate, hq q List.mem_cons_self, if_true]
      rw [hv]; exact ⟨by ring, trivial⟩
    have h2 := ih (fun p hp => hq p (List.mem_cons_of_mem _ hp)) (inflate c q t) (by rw [h1.1, h1.2]; exact hv)
    have h3 : run c ((q :: r).map Op.pass) t = run c (r.map Op.pass) (inflate c q t) := rfl
    rw [h3, h2.1, h2.2]
    exact h1

/-- **An edited volume gets the pressure that holds it, and an edited pressure the volume it makes.**  The pressure of a volume edit, as
the target of the tank, makes the edited volume, limited; and an edit of the volume that a pressure makes within the limits comes
back to this pressure. -/
theorem c88_edit (c : Config K) (hc : c.Valid) (q : Pass K) (s : State K) (v : K) :
    fromPressure c q (pressureEdit c q v) = (editVolume c v s).volume ∧
      (editVolume c v s).volume = max minVolume (min c.maxVolume v) ∧
      (∀ p, minVolume ≤ actual c q * (p - q.p1) → actual c q * (p - q.p1) ≤ c.maxVolume →
        pressureEdit c q (volumeEdit c q p) = p) := by
  have hk := actual_pos c q
  have hsp := span c hc
  have he : (editVolume c v s).volume = limitRange minVolume v c.maxVolume := by
    unfold editVolume limitRange
    simp only
    split
    · rename_i h
      rw [min_eq_left (by linarith), max_eq_right h.le]
    · rename_i h
      push Not at h
      split
      · rename_i h'
        rw [min_eq_right h'.le, max_eq_left (by linarith)]
      · rename_i h'
        push Not at h'
        rw [min_eq_left h', max_eq_left h]
  have hback : ∀ x, actual c q * (x / actual c q + q.p1 - q.p1) = x := by intro x; field_simp; ring
  refine ⟨?_, ?_, ?_⟩
  · rw [he]
    unfold fromPressure pressureEdit
    rw [hback]
    obtain ⟨h1, h2, -⟩ := limited c hc v
    exact (limited c hc _).2.2 h1 h2
  · rw [he]
    unfold limitRange
    rw [max_comm, min_comm]
  · intro p h1 h2
    unfold pressureEdit volumeEdit fromPressure
    rw [(limited c hc _).2.2 h1 h2, (limited c hc _).2.2 h1 h2]
    field_simp
    ring

/-- **The state of inflation**: deflated exactly at the least volume, inflated exactly at the greatest, in between inflating, deflating or
neither as the volume grew, shrank or stayed within `FLT_EPSILON`. -/
theorem c88_phase (c : Config K) (hc : c.Valid) (q : Pass K) (s : State K) :
    ((inflate c q s).phase = .deflated ↔ (inflate c q s).volume = minVolume) ∧
      ((inflate c q s).phase = .inflated ↔ (inflate c q s).volume = c.maxVolume) ∧
      ((inflate c q s).volume ≠ minVolume → (inflate c q s).volume ≠ c.maxVolume →
        ((inflate c q s).phase = .inflating ↔ s.volume + fltEps < (inflate c q s).volume) ∧
        ((inflate c q s).phase = .deflating ↔ (inflate c q s).volume < s.volume - fltEps) ∧
        ((inflate c q s).phase = .partly ↔ |(inflate c q s).volume - s.volume| ≤ fltEps)) := by
  have hsp := span c hc
  have hf := fltEps_pos (K := K)
  have hph : (inflate c q s).phase = classify c s.volume (inflate c q s).volume := rfl
  rw [hph]
  generalize (inflate c q s).volume = v
  unfold classify
  by_cases h1 : minVolume = v
  · rw [if_pos h1]
    refine ⟨by simp [h1], ?_, fun h => absurd h1.symm h⟩
    constructor
    · intro h; cases h
    · intro h; exfalso; rw [← h1] at h; rw [← h] at hsp; simp at hsp
  · rw [if_neg h1]
    by_cases h2 : c.maxVolume = v
    · rw [if_pos h2]
      refine ⟨⟨fun h => by (cases h), fun h => absurd h.symm h1⟩, by simp [h2], fun _ h => absurd h2.symm h⟩
    · rw [if_neg h2]
      have hm : ∀ {a b : K}, |a - b| ≤ fltEps ↔ b - fltEps ≤ a ∧ a ≤ b + fltEps := by
        intro a b; rw [abs_le]; constructor <;> rintro ⟨x, y⟩ <;> constructor <;> linarith
      by_cases h3 : s.volume + fltEps < v
      · rw [if_pos h3]
        refine ⟨⟨fun h => by (cases h), fun h => absurd h.symm h1⟩, ⟨fun h => by (cases h), fun h => absurd h.symm h2⟩, fun _ _ => ?_⟩
        refine ⟨by simp [h3], ⟨fun h => by (cases h), fun h => by exfalso; linarith⟩,
          ⟨fun h => by (cases h), fun h => by exfalso; linarith [(hm.1 h).2]⟩⟩
      · rw [if_neg h3]
        by_cases h4 : v < s.volume - fltEps
        · rw [if_pos h4]
          refine ⟨⟨fun h => by (cases h), fun h => absurd h.symm h1⟩, ⟨fun h => by (cases h), fun h => absurd h.symm h2⟩, fun _ _ => ?_⟩
          refine ⟨⟨fun h => by (cases h), fun h => absurd h h3⟩, by simp [h4],
            ⟨fun h => by (cases h), fun h => by exfalso; linarith [(hm.1 h).1]⟩⟩
        · rw [if_neg h4]
          refine ⟨⟨fun h => by (cases h), fun h => absurd h.symm h1⟩, ⟨fun h => by (cases h), fun h => absurd h.symm h2⟩, fun _ _ => ?_⟩
          refine ⟨⟨fun h => by (cases h), fun h => absurd h h3⟩, ⟨fun h => by (cases h), fun h => absurd h h4⟩, ?_⟩
          push Not at h3 h4
          exact ⟨fun _ => hm.2 ⟨h4, h3⟩, fun _ => rfl⟩

/-- **Failure: an edit of a stuck balloon is undone** by the pass it is made in: the volume goes back to that of the inflation. -/
theorem c88_stuck_edit (c : Config K) (q : Pass K) (s : State K) (v : K) (hq : q.stuck = true) :
    (inflate c q (editVolume c v s)).volume = s.inflation * (c.maxVolume - minVolume) + minVolume := by
  simp only [inflate, hq, if_true, editVolume]

/-- **Failure: a pressure edit to zero empties the balloon**, although the tank then keeps the present pressure: the node gets the least
volume, while the pressure edited to is the present one, that holds a greater volume. -/
theorem c88_zero_edit (c : Config K) (hc : c.Valid) (q : Pass K) (s : State K) (p : K) (hp : p < fltEps) (hp1 : p ≤ q.p1)
    (h : minVolume < actual c q * (q.p0 - q.p1)) :
    (editVolume c (volumeEdit c q p) s).volume = minVolume ∧ tankEdit p q.p0 = q.p0 ∧
      minVolume < fromPressure c q (tankEdit p q.p0) := by
  have hk := actual_pos c q
  have hm := min_pos (K := K)
  have hsp := span c hc
  have ht : tankEdit p q.p0 = q.p0 := by unfold tankEdit; rw [if_pos hp]
  have hv : volumeEdit c q p = minVolume := by
    unfold volumeEdit fromPressure limitRange
    have : actual c q * (p - q.p1) ≤ 0 := mul_nonpos_of_nonneg_of_nonpos hk.le (by linarith)
    rw [max_eq_right]
    exact le_trans (min_le_left _ _) (by linarith)
  refine ⟨?_, ht, ?_⟩
  · rw [hv]
    unfold editVolume
    simp only [lt_irrefl, if_false]
    rw [if_neg (by linarith)]
  · rw [ht]
    unfold fromPressure limitRange
    exact lt_max_of_lt_left (lt_min h (by linarith))

/-- The capacitance of the wall is counted at the least volume too, where the wall does not give. -/
theorem c88_capacitance (c : Config K) (q : Pass K) (s : State K) (rho w : K) (hr : 0 < rho) (hw : 0 < w) :
    (inflatableCapacitance c q s rho w = 0 ↔ s.volume = c.maxVolume ∨ q.stuck = true) ∧
      (s.volume ≠ c.maxVolume → q.stuck = false → inflatableCapacitance c q s rho w * w = actual c q * rho) := by
  have hk := actual_pos c q
  unfold inflatableCapacitance
  constructor
  · by_cases h : s.volume = c.maxVolume ∨ q.stuck = true
    · rw [if_pos h]; exact ⟨fun _ => h, fun _ => rfl⟩
    · rw [if_neg h]
      constructor
      · intro h0; exfalso
        have : 0 < actual c q * rho / w := by positivity
        linarith
      · intro h'; exact absurd h' h
  · intro h1 h2
    rw [if_neg (by rintro (h | h); exact h1 h; rw [h2] at h; cases h)]
    rw [div_mul_cancel₀ _ hw.ne']

end volume

/-! ## The pressure correction -/

/-- **The corrected state is that of an ideal gas, and the damping has no effect.**  For a partly inflated, free balloon with positive
pressure, volume and contents, and any correction of the node other than zero, the balloon corrects the pressure by the `x` with
`(p + x) (v + k x) = m`, with both factors positive: the same for every correction of the node. -/
theorem c88_correction (inflation k pc p v m : ℝ) (hi : 0 < inflation) (hi1 : inflation < 1) (hk : 0 < k) (hpc : pc ≠ 0)
    (hp : 0 < p) (hv : 0 < v) (hm : 0 < m) :
    (p + correction inflation false k pc p v m) * (v + k * correction inflation false k pc p v m) = m ∧
      0 < p + correction inflation false k pc p v m ∧ 0 < v + k * correction inflation false k pc p v m ∧
      (∀ x, (p + x) * (v + k * x) = m → 0 < p + x → x = correction inflation false k pc p v m) := by
  have hpc2 : 0 < pc * pc := mul_self_pos.2 hpc
  set b := pc * (k * p + v) with hb
  set a := k * pc * pc with ha
  have ha0 : 0 < a := by rw [ha, mul_assoc]; exact mul_pos hk hpc2
  set c := v * p - m with hc
  have hd : b * b - 4 * a * c = pc * pc * ((k * p - v) * (k * p - v) + 4 * k * m) := by rw [ha, hb, hc]; ring
  have hdpos : 0 < b * b - 4 * a * c := by
    rw [hd]
    apply mul_pos hpc2
    have : 0 ≤ (k * p - v) * (k * p - v) := mul_self_nonneg _
    have : 0 < k * m := mul_pos hk hm
    linarith
  set r := Real.sqrt (b * b - 4 * a * c) with hr
  have hrpos : 0 < r := Real.sqrt_pos.2 hdpos
  have hrr : r * r = b * b - 4 * a * c := Real.mul_self_sqrt hdpos.le
  -- the square root of what does not depend on pc
  set e := Real.sqrt ((k * p - v) * (k * p - v) + 4 * k * m) with he
  have hekm : 0 < (k * p - v) * (k * p - v) + 4 * k * m := by
    have : 0 ≤ (k * p - v) * (k * p - v) := mul_self_nonneg _
    have : 0 < k * m := mul_pos hk hm
    linarith
  have hepos : 0 < e := Real.sqrt_pos.2 hekm
  have hee : e * e = (k * p - v) * (k * p - v) + 4 * k * m := Real.mul_self_sqrt hekm.le
  have hre : r = |pc| * e := by
    rw [hr, hd, Real.sqrt_mul hpc2.le, Real.sqrt_mul_self_eq_abs]
  have hcorr : correction inflation false k pc p v m = (-(k * p + v) + e) / (2 * k) := by
    have hg : gain inflation false k pc p v m =
        if |(-b + r) * (1 / 2) / a| < |(-b - r) * (1 / 2) / a| then (-b + r) * (1 / 2) / a else (-b - r) * (1 / 2) / a := by
      unfold gain
      rw [if_pos ⟨hi, hi1, rfl⟩]
      simp only [← ha, ← hb, ← hc]
      rw [if_pos ⟨abs_pos.2 ha0.ne', hdpos⟩]
    unfold correction
    rw [hg]
    have hS : 0 < k * p + v := by positivity
    rcases lt_or_gt_of_ne hpc with hneg | hpos
    · -- pc < 0: b < 0 and the minus root is nearer
      have habs : |pc| = -pc := abs_of_neg hneg
      have hbneg : b < 0 := by rw [hb]; exact mul_neg_of_neg_of_pos hneg hS
      have hnot : ¬|(-b + r) * (1 / 2) / a| < |(-b - r) * (1 / 2) / a| := by
        rw [abs_div, abs_div, abs_mul (-b + r), abs_mul (-b - r), abs_of_pos ha0]
        push Not
        apply div_le_div_of_nonneg_right _ ha0.le
        apply mul_le_mul_of_nonneg_right _ (abs_nonneg _)
        rw [abs_of_pos (by linarith : 0 < -b + r), abs_le]
        constructor <;> linarith
      rw [if_neg hnot, hre, habs, ha, hb]
      field_simp
      ring
    · have habs : |pc| = pc := abs_of_pos hpos
      have hbpos : 0 < b := by rw [hb]; exact mul_pos hpos hS
      have hlt : |(-b + r) * (1 / 2) / a| < |(-b - r) * (1 / 2) / a| := by
        rw [abs_div, abs_div, abs_mul (-b + r), abs_mul (-b - r), abs_of_pos ha0]
        apply div_lt_div_of_pos_right _ ha0
        apply mul_lt_mul_of_pos_right _ (by norm_num)
        rw [abs_of_neg (by linarith : -b - r < 0), abs_lt]
        constructor <;> linarith
      rw [if_pos hlt, hre, habs, ha, hb]
      field_simp
  rw [hcorr]
  have h1 : p + (-(k * p + v) + e) / (2 * k) = (k * p - v + e) / (2 * k) := by field_simp; ring
  have h2 : v + k * ((-(k * p + v) + e) / (2 * k)) = (-(k * p - v) + e) / 2 := by field_simp; ring
  have hbig : |k * p - v| < e := by
    rw [he]
    apply Real.lt_sqrt_of_sq_lt
    rw [sq_abs]
    have : 0 < k * m := mul_pos hk hm
    nlinarith
  have hb1 := abs_lt.1 hbig
  have hprod : (k * p - v + e) / (2 * k) * ((-(k * p - v) + e) / 2) = m := by
    have : (k * p - v + e) * (-(k * p - v) + e) = 4 * k * m := by linear_combination hee
    field_simp
    linarith
  have hpos1 : 0 < (k * p - v + e) / (2 * k) := by apply div_pos <;> linarith
  have hpos2 : 0 < (-(k * p - v) + e) / 2 := by linarith
  refine ⟨by rw [h1, h2]; exact hprod, by rw [h1]; exact hpos1, by rw [h2]; exact hpos2, ?_⟩
  intro x hx hxp
  -- both solve; positive on both factors makes them equal
  have hy : 0 < v + k * x := by
    by_contra hcon
    push Not at hcon
    have : (p + x) * (v + k * x) ≤ 0 := mul_nonpos_of_nonneg_of_nonpos hxp.le hcon
    linarith
  set y := (-(k * p + v) + e) / (2 * k) with hyd
  have hyprod : (p + y) * (v + k * y) = m := by rw [h1, h2]; exact hprod
  have hyp : 0 < p + y := by rw [h1]; exact hpos1
  have hdiff : (x - y) * ((v + k * x) + k * (p + y)) = 0 := by linear_combination hx - hyprod
  have hsum : 0 < (v + k * x) + k * (p + y) := by positivity
  rcases mul_eq_zero.1 hdiff with h | h
  · linarith
  · linarith

/-- **Failure: the node's damping is lost**: a node that damps its correction to any part of it, or turns its sign, does not change the
balloon's. -/
theorem c88_undamped (inflation k pc pc' p v m : ℝ) (hi : 0 < inflation) (hi1 : inflation < 1) (hk : 0 < k) (hpc : pc ≠ 0)
    (hpc' : pc' ≠ 0) (hp : 0 < p) (hv : 0 < v) (hm : 0 < m) :
    correction inflation false k pc p v m = correction inflation false k pc' p v m := by
  obtain ⟨h1, h2, -, -⟩ := c88_correction inflation k pc p v m hi hi1 hk hpc hp hv hm
  exact (c88_correction inflation k pc' p v m hi hi1 hk hpc' hp hv hm).2.2.2 _ h1 h2

/-- Rigid, the correction is the node's. -/
theorem c88_rigid (inflation k pc p v m : ℝ) (stuck : Bool) (h : inflation ≤ 0 ∨ 1 ≤ inflation ∨ stuck = true) :
    correction inflation stuck k pc p v m = pc := by
  unfold correction gain
  rw [if_neg, one_mul]
  rintro ⟨h1, h2, h3⟩
  rcases h with h | h | h
  · linarith
  · linarith
  · rw [h3] at h; cases h

/-! ## Examples -/

private def c88config : Config ℚ := { inflatability := 1 / 10, maxVolume := 2 }

private def c88pass : Pass ℚ := { stuck := false, scale := none, p0 := 110, p1 := 100 }

private def c88state : State ℚ := { inflation := 1 / 4, phase := .partly, volume := 1 / 2 }

/-- The hypotheses of the theorems on the volume. -/
example : c88config.Valid ∧ c88Sound c88config c88state := by
  refine ⟨⟨by decide +kernel, by decide +kernel⟩, by decide +kernel, by decide +kernel, by decide +kernel, by decide +kernel⟩

/-- The balloon inflates to 1. -/
example : (inflate c88config c88pass c88state).volume = 1 ∧ (inflate c88config c88pass c88state).phase = .inflating := by
  decide +kernel

/-- An edit to 3 is limited to 2, which a pressure of 120 holds. -/
example : pressureEdit c88config c88pass 3 = 120 ∧ (editVolume c88config 3 c88state).volume = 2 := by decide +kernel

/-- The hypotheses of `c88_zero_edit`. -/
example : (editVolume c88config (volumeEdit c88config c88pass 0) c88state).volume = minVolume :=
  (c88_zero_edit c88config ⟨by decide +kernel, by decide +kernel⟩ c88pass c88state 0 (by decide +kernel) (by decide +kernel)
    (by decide +kernel)).1

/-- With `k = 1`, `p = 1`, `v = 1` and contents of 4 the pressure goes up by 1, whatever the node's correction. -/
example : correction (1 / 2) false 1 (1 / 100) 1 1 4 = 1 :=
  ((c88_correction (1 / 2) 1 (1 / 100) 1 1 4 (by norm_num) (by norm_num) (by norm_num) (by norm_num) (by norm_num) (by norm_num)
    (by norm_num)).2.2.2 1 (by norm_num) (by norm_num)).symm

end Gunns.Props
