import Verif.Fluid.ReliefValve
import Verif.Fluid.ReliefSpec
import Mathlib.Tactic.Linarith
import Mathlib.Tactic.FieldSimp
import Mathlib.Tactic.Ring
import Mathlib.Tactic.Positivity

/-!
# Lemmas on relief and regulator valves
-/

set_option linter.unusedSectionVars false

namespace Gunns.FluidValve

open Gunns.Interp (limitRange)
open Spec

variable {K : Type _} [Field K] [LinearOrder K] [IsStrictOrderedRing K]

/-- What the validation of the configuration gives for a curve. -/
structure Ok (start full pop scale : K) : Prop where
  lt : start < full
  pos : 0 < pop
  one : pop < 1
  sc : 1 ≤ scale

section
variable {start full pop scale : K} (h : Ok start full pop scale)
include h

theorem Ok.scPos : 0 < scale := lt_of_lt_of_le one_pos h.sc

theorem Ok.dPos : 0 < full - start := sub_pos.2 h.lt

theorem knee_gt : start < knee start full pop scale := by
  unfold knee
  have : 0 < pop * (full - start) / scale := div_pos (mul_pos h.pos h.dPos) h.scPos
  linarith

theorem knee_lt : knee start full pop scale < full := by
  unfold knee
  have h1 : pop * (full - start) / scale < full - start := by
    rw [div_lt_iff₀ h.scPos]
    have := mul_lt_mul_of_pos_right h.one h.dPos
    have := mul_le_mul_of_nonneg_left h.sc h.dPos.le
    linarith
  linarith

theorem make_popM : (Branch.make start full pop scale).popM = scale / (full - start) := by
  show 1 / (full - start) * scale = _
  ring

theorem make_popMInv : (Branch.make start full pop scale).popMInv = (full - start) / scale := by
  show 1 / (1 / (full - start) * scale) = _
  have := h.dPos.ne'
  have := h.scPos.ne'
  field_simp

theorem make_popB : (Branch.make start full pop scale).popB = -(scale / (full - start)) * start := by
  show -(1 / (full - start) * scale) * start = _
  ring

theorem make_popP : (Branch.make start full pop scale).popP = knee start full pop scale := by
  show (pop - (Branch.make start full pop scale).popB) * (Branch.make start full pop scale).popMInv = _
  rw [make_popB h, make_popMInv h]
  have := h.dPos.ne'
  have := h.scPos.ne'
  unfold knee
  field_simp
  ring

theorem make_nomM : (Branch.make start full pop scale).nomM = (1 - pop) / (full - knee start full pop scale) := by
  show (1 - pop) / (full - (Branch.make start full pop scale).popP) = _
  rw [make_popP h]

theorem make_nomMInv :
    (Branch.make start full pop scale).nomMInv = (full - knee start full pop scale) / (1 - pop) := by
  show 1 / (Branch.make start full pop scale).nomM = _
  rw [make_nomM h, one_div_div]

theorem make_nomB : (Branch.make start full pop scale).nomB =
    1 - (1 - pop) / (full - knee start full pop scale) * full := by
  show 1 - (Branch.make start full pop scale).nomM * full = _
  rw [make_nomM h]

theorem curve_nonneg (p : K) : 0 ≤ curve start full pop scale p := by
  unfold curve
  have h1 := h.scPos
  have h2 := h.dPos
  have h3 := h.pos
  have h4 := h.one
  have h5 := knee_lt h
  split_ifs with ha hb hc
  · exact le_refl _
  · push Not at ha
    exact div_nonneg (mul_nonneg h1.le (by linarith)) h2.le
  · push Not at hb
    have : 0 ≤ (1 - pop) * (p - knee start full pop scale) / (full - knee start full pop scale) :=
      div_nonneg (mul_nonneg (by linarith) (by linarith)) (by linarith)
    linarith
  · exact zero_le_one

theorem curve_le_one (p : K) : curve start full pop scale p ≤ 1 := by
  unfold curve
  have h1 := h.scPos
  have h2 := h.dPos
  have h4 := h.one
  have h5 := knee_lt h
  split_ifs with ha hb hc
  · exact zero_le_one
  · rw [div_le_one h2]
    unfold knee at hb
    have : p - start ≤ pop * (full - start) / scale := by linarith
    rw [le_div_iff₀ h1] at this
    have := mul_lt_mul_of_pos_right h.one h2
    linarith
  · push Not at hb
    have : (1 - pop) * (p - knee start full pop scale) / (full - knee start full pop scale) ≤ 1 - pop := by
      rw [div_le_iff₀ (by linarith)]
      exact mul_le_mul_of_nonneg_left (by linarith) (by linarith)
    linarith
  · exact le_refl _

/-- On the steep part. -/
theorem curve_pop {p : K} (h1 : start ≤ p) (h2 : p ≤ knee start full pop scale) :
    curve start full pop scale p = scale * (p - start) / (full - start) := by
  unfold curve
  by_cases ha : p ≤ start
  · have : p = start := le_antisymm ha h1
    rw [if_pos ha, this]
    simp
  · rw [if_neg ha, if_pos h2]

/-- On the flat part. -/
theorem curve_nom {p : K} (h1 : knee start full pop scale ≤ p) (h2 : p ≤ full) :
    curve start full pop scale p =
      pop + (1 - pop) * (p - knee start full pop scale) / (full - knee start full pop scale) := by
  have h3 := knee_gt h
  by_cases ha : p ≤ knee start full pop scale
  · have e : p = knee start full pop scale := le_antisymm ha h1
    rw [curve_pop h (by linarith) ha, e]
    have h4 := h.dPos.ne'
    have h5 := h.scPos.ne'
    rw [sub_self, mul_zero, zero_div, add_zero]
    unfold knee
    field_simp
    ring
  · unfold curve
    rw [if_neg (by linarith), if_neg ha, if_pos h2]

theorem curve_zero {p : K} (hp : p ≤ start) : curve start full pop scale p = 0 := by
  unfold curve
  rw [if_pos hp]

theorem curve_one {p : K} (hp : full ≤ p) : curve start full pop scale p = 1 := by
  have h3 := knee_gt h
  have h4 := knee_lt h
  rcases hp.lt_or_eq with hp | hp
  · unfold curve
    rw [if_neg (by linarith), if_neg (by linarith), if_neg (by linarith)]
  · rw [← hp, curve_nom h h4.le (le_refl _)]
    have : full - knee start full pop scale ≠ 0 := by linarith
    field_simp
    ring

theorem curve_knee : curve start full pop scale (knee start full pop scale) = pop := by
  rw [curve_nom h (le_refl _) (knee_lt h).le]
  simp

/-- A curve does not fall. -/
theorem curve_mono {p q : K} (hpq : p ≤ q) : curve start full pop scale p ≤ curve start full pop scale q := by
  have h1 := knee_gt h
  have h2 := knee_lt h
  have h3 := h.scPos
  have h4 := h.dPos
  have h5 := h.one
  have low : ∀ {a b : K}, start ≤ a → a ≤ b → b ≤ knee start full pop scale →
      curve start full pop scale a ≤ curve start full pop scale b := by
    intro a b ha hab hb
    rw [curve_pop h ha (hab.trans hb), curve_pop h (ha.trans hab) hb]
    exact div_le_div_of_nonneg_right (mul_le_mul_of_nonneg_left (by linarith) h3.le) h4.le
  have high : ∀ {a b : K}, knee start full pop scale ≤ a → a ≤ b → b ≤ full →
      curve start full pop scale a ≤ curve start full pop scale b := by
    intro a b ha hab hb
    rw [curve_nom h ha (hab.trans hb), curve_nom h (ha.trans hab) hb]
    have := div_le_div_of_nonneg_right (c := full - knee start full pop scale)
      (mul_le_mul_of_nonneg_left (sub_le_sub_right hab (knee start full pop scale)) (sub_nonneg.2 h5.le))
      (by linarith)
    linarith
  by_cases a1 : p ≤ start
  · rw [curve_zero h a1]
    exact curve_nonneg h q
  push Not at a1
  by_cases a2 : full ≤ q
  · rw [curve_one h a2]
    exact curve_le_one h p
  push Not at a2
  by_cases a3 : q ≤ knee start full pop scale
  · exact low a1.le hpq a3
  push Not at a3
  by_cases a4 : knee start full pop scale ≤ p
  · exact high a4 hpq a2.le
  push Not at a4
  exact (low a1.le a4.le (le_refl _)).trans (high (le_refl _) a3.le a2.le)

/-- The lines of the code, cut to the range of the position, are the curve. -/
theorem line_curve (p : K) :
    max 0 (min 1 (if p ≤ (Branch.make start full pop scale).popP then
      (Branch.make start full pop scale).popB + (Branch.make start full pop scale).popM * p
      else (Branch.make start full pop scale).nomB + (Branch.make start full pop scale).nomM * p)) =
      curve start full pop scale p := by
  have h1 := knee_gt h
  have h2 := knee_lt h
  have h3 := h.scPos
  have h4 := h.dPos
  have h5 := h.one
  rw [make_popP h, make_popB h, make_popM h, make_nomB h, make_nomM h]
  by_cases ha : p ≤ knee start full pop scale
  · rw [if_pos ha]
    have e : -(scale / (full - start)) * start + scale / (full - start) * p = scale * (p - start) / (full - start) := by
      ring
    rw [e]
    by_cases hb : p ≤ start
    · rw [curve_zero h hb]
      have : scale * (p - start) / (full - start) ≤ 0 :=
        div_nonpos_of_nonpos_of_nonneg (mul_nonpos_of_nonneg_of_nonpos h3.le (by linarith)) h4.le
      exact max_eq_left ((min_le_right _ _).trans this)
    · push Not at hb
      rw [← curve_pop h hb.le ha, min_eq_right (curve_le_one h p), max_eq_right (curve_nonneg h p)]
  · rw [if_neg ha]
    push Not at ha
    have hne : full - knee start full pop scale ≠ 0 := by linarith
    have e : 1 - (1 - pop) / (full - knee start full pop scale) * full +
        (1 - pop) / (full - knee start full pop scale) * p =
        pop + (1 - pop) * (p - knee start full pop scale) / (full - knee start full pop scale) := by
      field_simp
      ring
    rw [e]
    by_cases hb : p ≤ full
    · rw [← curve_nom h ha.le hb, min_eq_right (curve_le_one h p), max_eq_right (curve_nonneg h p)]
    · push Not at hb
      rw [curve_one h hb.le]
      have : 1 - pop ≤ (1 - pop) * (p - knee start full pop scale) / (full - knee start full pop scale) := by
        rw [le_div_iff₀ (by linarith)]
        exact mul_le_mul_of_nonneg_left (by linarith) (by linarith)
      rw [min_eq_left (by linarith), max_eq_right zero_le_one]

/-- The pressure that the code computes for a position. -/
def inv (b : Branch K) (pop y : K) : K :=
  if y ≤ pop then (y - b.popB) * b.popMInv else (y - b.nomB) * b.nomMInv

omit h in
theorem Prv.at_eq (s : Prv K) (b : Branch K) : s.at b = inv b s.pop s.position := rfl

theorem inv_pop {y : K} (hy : y ≤ pop) :
    inv (Branch.make start full pop scale) pop y = start + y * (full - start) / scale := by
  unfold inv
  rw [if_pos hy, make_popB h, make_popMInv h]
  have := h.scPos.ne'
  have := h.dPos.ne'
  field_simp
  ring

theorem inv_nom {y : K} (hy : pop < y) :
    inv (Branch.make start full pop scale) pop y = knee start full pop scale +
      (y - pop) * (full - knee start full pop scale) / (1 - pop) := by
  unfold inv
  rw [if_neg (not_le.2 hy), make_nomB h, make_nomMInv h]
  have h1 : (1 - pop) ≠ 0 := by have := h.one; linarith
  have h2 : full - knee start full pop scale ≠ 0 := by have := knee_lt h; linarith
  field_simp
  ring

/-- The curve has the position at that pressure. -/
theorem curve_inv {y : K} (h0 : 0 ≤ y) (h1 : y ≤ 1) :
    curve start full pop scale (inv (Branch.make start full pop scale) pop y) = y := by
  have hs := h.scPos
  have hd := h.dPos
  have ho := h.one
  have hk := knee_lt h
  by_cases hy : y ≤ pop
  · rw [inv_pop h hy]
    have a : 0 ≤ y * (full - start) / scale := div_nonneg (mul_nonneg h0 hd.le) hs.le
    have b : y * (full - start) / scale ≤ pop * (full - start) / scale :=
      div_le_div_of_nonneg_right (mul_le_mul_of_nonneg_right hy hd.le) hs.le
    rw [curve_pop h (by linarith) (by unfold knee; linarith)]
    have := hs.ne'
    have := hd.ne'
    rw [add_sub_cancel_left]
    field_simp
  · push Not at hy
    rw [inv_nom h hy]
    have a : 0 ≤ (y - pop) * (full - knee start full pop scale) / (1 - pop) :=
      div_nonneg (mul_nonneg (by linarith) (by linarith)) (by linarith)
    have b : (y - pop) * (full - knee start full pop scale) / (1 - pop) ≤ full - knee start full pop scale := by
      rw [div_le_iff₀ (by linarith), mul_comm]
      exact mul_le_mul_of_nonneg_left (by linarith) (by linarith)
    rw [curve_nom h (by linarith) (by linarith)]
    have h1 : (1 - pop) ≠ 0 := by linarith
    have h2 : full - knee start full pop scale ≠ 0 := by linarith
    rw [add_sub_cancel_left]
    field_simp
    ring

end

/-- The curve that starts later has a position later. -/
theorem inv_le {a b full pop scale : K} (hab : a ≤ b) (ha : Ok a full pop scale) (hb : Ok b full pop scale) {y : K}
    (h1 : y ≤ 1) :
    inv (Branch.make a full pop scale) pop y ≤ inv (Branch.make b full pop scale) pop y := by
  have hs := hb.scPos
  have ho := hb.one
  have hp := hb.pos
  have hpos : pop ≤ scale := by have := hb.sc; linarith
  have hkab : knee a full pop scale ≤ knee b full pop scale := by
    have e : knee b full pop scale - knee a full pop scale = (b - a) * (scale - pop) / scale := by
      unfold knee
      have := hs.ne'
      field_simp
      ring
    have : 0 ≤ (b - a) * (scale - pop) / scale := div_nonneg (mul_nonneg (by linarith) (by linarith)) hs.le
    linarith
  by_cases hy : y ≤ pop
  · rw [inv_pop ha hy, inv_pop hb hy]
    have e : (b + y * (full - b) / scale) - (a + y * (full - a) / scale) = (b - a) * (scale - y) / scale := by
      have := hs.ne'
      field_simp
      ring
    have : 0 ≤ (b - a) * (scale - y) / scale := div_nonneg (mul_nonneg (by linarith) (by linarith)) hs.le
    linarith
  · push Not at hy
    rw [inv_nom ha hy, inv_nom hb hy]
    obtain ⟨u, hu⟩ : ∃ u, u = knee a full pop scale := ⟨_, rfl⟩
    obtain ⟨v, hv⟩ : ∃ v, v = knee b full pop scale := ⟨_, rfl⟩
    rw [← hu, ← hv] at hkab ⊢
    have h1p : (1 - pop) ≠ 0 := by linarith
    have e : (v + (y - pop) * (full - v) / (1 - pop)) - (u + (y - pop) * (full - u) / (1 - pop)) =
        (v - u) * (1 - y) / (1 - pop) := by
      field_simp
      ring
    have : 0 ≤ (v - u) * (1 - y) / (1 - pop) := div_nonneg (mul_nonneg (by linarith) (by linarith)) (by linarith)
    linarith

/-- The curve that starts later is lower. -/
theorem curve_le {a b full pop scale : K} (hab : a ≤ b) (ha : Ok a full pop scale) (hb : Ok b full pop scale) (p : K) :
    curve b full pop scale p ≤ curve a full pop scale p := by
  have hs := hb.scPos
  have ho := hb.one
  have hinv := fun y => inv_le hab ha hb (y := y)
  by_cases h1 : p ≤ b
  · rw [curve_zero hb h1]
    exact curve_nonneg ha p
  by_cases h2 : full ≤ p
  · rw [curve_one ha h2]
    exact curve_le_one hb p
  push Not at h1 h2
  obtain ⟨y, hy⟩ : ∃ y, y = curve b full pop scale p := ⟨_, rfl⟩
  have y0 : 0 ≤ y := hy ▸ curve_nonneg hb p
  have y1 : y ≤ 1 := hy ▸ curve_le_one hb p
  have hpe : inv (Branch.make b full pop scale) pop y ≤ p := by
    have hd := hb.dPos
    have hk := knee_lt hb
    by_cases hc : p ≤ knee b full pop scale
    · have e := curve_pop hb h1.le hc
      have hyp : y ≤ pop := by
        rw [hy]
        exact (curve_mono hb hc).trans (curve_knee hb).le
      rw [inv_pop hb hyp, hy, e]
      have := hs.ne'
      have := hd.ne'
      have : b + scale * (p - b) / (full - b) * (full - b) / scale = p := by
        field_simp
        ring
      exact this.le
    · push Not at hc
      have e := curve_nom hb hc.le h2.le
      have hyp : pop < y := by
        rw [hy, e]
        have : 0 < (1 - pop) * (p - knee b full pop scale) / (full - knee b full pop scale) :=
          div_pos (mul_pos (by linarith) (by linarith)) (by linarith)
        linarith
      rw [inv_nom hb hyp, hy, e]
      have h1 : (1 - pop) ≠ 0 := by linarith
      have h2 : full - knee b full pop scale ≠ 0 := by linarith
      have : knee b full pop scale + (pop + (1 - pop) * (p - knee b full pop scale) /
          (full - knee b full pop scale) - pop) * (full - knee b full pop scale) / (1 - pop) = p := by
        field_simp
        ring
      exact this.le
  rw [← hy]
  calc y = curve a full pop scale (inv (Branch.make a full pop scale) pop y) := (curve_inv ha y0 y1).symm
    _ ≤ curve a full pop scale p := curve_mono ha ((hinv y y1).trans hpe)

/-- The limits of the code on the new position, for a position in its range. -/
theorem limit_toward {d y t : K} (hd : 0 ≤ d) (h0 : 0 ≤ y) (h1 : y ≤ 1) :
    limitRange (max 0 (y - d)) t (min 1 (y + d)) = toward d y (max 0 (min 1 t)) := by
  unfold limitRange toward
  rcases le_total t (y - d) with a | a
  · have e1 : min t (min 1 (y + d)) = t := min_eq_left (le_min (by linarith) (by linarith))
    have e2 : min 1 t = t := min_eq_right (by linarith)
    rw [e1, e2]
    rcases le_total 0 t with b | b
    · rw [max_eq_right b, min_eq_right (by linarith), max_eq_left a, max_eq_right (a := (0 : K)) (b := y - d)
        (by linarith), max_eq_right a]
    · rw [max_eq_left b, min_eq_right (by linarith)]
      rw [max_comm (y - d) 0]
      exact max_eq_right (le_max_of_le_left b)
  · rcases le_total (y + d) t with b | b
    · rw [min_eq_right (a := t) ((min_le_right _ _).trans b)]
      have e : min (y + d) (max 0 (min 1 t)) = min 1 (y + d) := by
        rcases le_total 1 t with c | c
        · rw [min_eq_left c, max_eq_right zero_le_one, min_comm]
        · rw [min_eq_right c, max_eq_right (by linarith), min_eq_left b, min_eq_right (by linarith)]
      rw [e]
      have : 0 ≤ min 1 (y + d) := le_min zero_le_one (by linarith)
      have : y - d ≤ min 1 (y + d) := le_min (by linarith) (by linarith)
      rw [max_eq_right this, max_eq_left (max_le ‹_› this)]
    · rcases le_total t 0 with c | c
      · have e1 : min t (min 1 (y + d)) = t := min_eq_left (le_min (by linarith) b)
        rw [e1, min_eq_right (a := (1 : K)) (by linarith), max_eq_left c, min_eq_right (by linarith),
          max_comm (y - d) 0]
        exact max_eq_right (le_max_of_le_left c)
      · rcases le_total 1 t with e | e
        · rw [min_eq_left e, max_eq_right zero_le_one, min_eq_left (a := (1 : K)) (by linarith),
            min_eq_right e, min_eq_right (by linarith), max_eq_right (a := y - d) (by linarith),
            max_eq_left (max_le zero_le_one (by linarith))]
        · rw [min_eq_right (a := (1 : K)) e, max_eq_right (a := (0 : K)) c, min_eq_right b, max_eq_right a,
            min_eq_left (le_min e b), max_eq_left (max_le c a)]

/-! ## Relief valves -/

/-- A relief valve as its initialization makes it, with a position in its range. -/
structure Relief (s : Prv K) : Prop where
  rate : 0 ≤ s.rate
  reseat : s.reseat < s.crack
  crack : s.crack < s.fullOpen
  pos : 0 < s.pop
  one : s.pop < 1
  sc : 1 ≤ s.scale
  inc : s.inc = Branch.make s.crack s.fullOpen s.pop s.scale
  dec : s.dec = Branch.make s.reseat s.fullOpen s.pop s.scale
  p0 : 0 ≤ s.position
  p1 : s.position ≤ 1

theorem Relief.okO {s : Prv K} (h : Relief s) : Ok s.crack s.fullOpen s.pop s.scale :=
  ⟨h.crack, h.pos, h.one, h.sc⟩

theorem Relief.okC {s : Prv K} (h : Relief s) : Ok s.reseat s.fullOpen s.pop s.scale :=
  ⟨h.reseat.trans h.crack, h.pos, h.one, h.sc⟩

/-- The curve along which the valve opens. -/
def Prv.openCurve (s : Prv K) (p : K) : K := curve s.crack s.fullOpen s.pop s.scale p

/-- The curve along which the valve closes. -/
def Prv.closeCurve (s : Prv K) (p : K) : K := curve s.reseat s.fullOpen s.pop s.scale p

/-- The state of the valve agrees with its position. -/
def Prv.Synced (s : Prv K) : Prop :=
  match s.state with
  | .closed => s.position = 0
  | .full => s.position = 1
  | .opening => s.position ≤ s.openCurve s.prev
  | .closing => s.closeCurve s.prev ≤ s.position
  | .transitioning => True

variable {s : Prv K}

theorem at_inc (h : Relief s) : s.openCurve (s.at s.inc) = s.position := by
  rw [Prv.at_eq, h.inc]
  exact curve_inv h.okO h.p0 h.p1

theorem at_dec (h : Relief s) : s.closeCurve (s.at s.dec) = s.position := by
  rw [Prv.at_eq, h.dec]
  exact curve_inv h.okC h.p0 h.p1

theorem open_mono (h : Relief s) {p q : K} (hpq : p ≤ q) : s.openCurve p ≤ s.openCurve q := curve_mono h.okO hpq

theorem close_mono (h : Relief s) {p q : K} (hpq : p ≤ q) : s.closeCurve p ≤ s.closeCurve q := curve_mono h.okC hpq

theorem open_le_close (h : Relief s) (p : K) : s.openCurve p ≤ s.closeCurve p :=
  curve_le h.reseat.le h.okC h.okO p

/-- What the new state says of the position and of the pressure, whatever the state was. -/
theorem state_facts (h : Relief s) :
    match s.reliefState with
    | .closed => s.openCurve s.control = 0 ∧ (s.state = .closed ∨ s.closeCurve s.control = 0)
    | .full => s.openCurve s.control = 1
    | .opening => s.Synced → s.position ≤ s.openCurve s.control
    | .closing => s.Synced → s.closeCurve s.control ≤ s.position
    | .transitioning => s.openCurve s.control ≤ s.position ∧ s.position ≤ s.closeCurve s.control := by
  have trans : s.reliefState1 = .transitioning →
      (s.reliefState = .opening ∧ s.position ≤ s.openCurve s.control) ∨
      (s.reliefState = .closing ∧ s.closeCurve s.control ≤ s.position) ∨
      (s.reliefState = .transitioning ∧ s.openCurve s.control ≤ s.position ∧
        s.position ≤ s.closeCurve s.control) := by
    intro ht
    unfold Prv.reliefState
    rw [if_pos ht]
    by_cases h1 : s.control > s.at s.inc
    · rw [if_pos h1]
      exact .inl ⟨rfl, at_inc h ▸ open_mono h h1.le⟩
    · rw [if_neg h1]
      push Not at h1
      by_cases h2 : s.control < s.at s.dec
      · rw [if_pos h2]
        exact .inr (.inl ⟨rfl, (close_mono h h2.le).trans (at_dec h).le⟩)
      · rw [if_neg h2]
        push Not at h2
        exact .inr (.inr ⟨rfl, (open_mono h h1).trans (at_inc h).le, (at_dec h).symm.le.trans (close_mono h h2)⟩)
  have other : s.reliefState1 ≠ .transitioning → s.reliefState = s.reliefState1 := by
    intro ht
    unfold Prv.reliefState
    rw [if_neg ht]
  have done : s.reliefState1 = .transitioning →
      match s.reliefState with
      | .closed => s.openCurve s.control = 0 ∧ (s.state = .closed ∨ s.closeCurve s.control = 0)
      | .full => s.openCurve s.control = 1
      | .opening => s.Synced → s.position ≤ s.openCurve s.control
      | .closing => s.Synced → s.closeCurve s.control ≤ s.position
      | .transitioning => s.openCurve s.control ≤ s.position ∧ s.position ≤ s.closeCurve s.control := by
    intro ht
    rcases trans ht with ⟨e, f⟩ | ⟨e, f⟩ | ⟨e, f⟩
    · rw [e]
      exact fun _ => f
    · rw [e]
      exact fun _ => f
    · rw [e]
      exact f
  cases hs : s.state with
  | closed =>
    by_cases h1 : s.control > s.crack
    · have e : s.reliefState1 = .opening := by
        unfold Prv.reliefState1
        rw [hs]
        exact if_pos h1
      rw [other (by rw [e]; decide), e]
      intro hy
      unfold Prv.Synced at hy
      rw [hs] at hy
      rw [hy]
      exact curve_nonneg h.okO _
    · have e : s.reliefState1 = .closed := by
        unfold Prv.reliefState1
        rw [hs]
        exact if_neg h1
      rw [other (by rw [e]; decide), e]
      exact ⟨curve_zero h.okO (not_lt.1 h1), .inl rfl⟩
  | full =>
    by_cases h1 : s.control < s.fullOpen
    · have e : s.reliefState1 = .closing := by
        unfold Prv.reliefState1
        rw [hs]
        exact if_pos h1
      rw [other (by rw [e]; decide), e]
      intro hy
      unfold Prv.Synced at hy
      rw [hs] at hy
      rw [hy]
      exact curve_le_one h.okC _
    · have e : s.reliefState1 = .full := by
        unfold Prv.reliefState1
        rw [hs]
        exact if_neg h1
      rw [other (by rw [e]; decide), e]
      exact curve_one h.okO (not_lt.1 h1)
  | opening =>
    by_cases h1 : s.control > s.fullOpen
    · have e : s.reliefState1 = .full := by
        unfold Prv.reliefState1
        rw [hs]
        exact if_pos h1
      rw [other (by rw [e]; decide), e]
      exact curve_one h.okO h1.le
    · by_cases h2 : s.control < s.prev
      · have e : s.reliefState1 = .transitioning := by
          unfold Prv.reliefState1
          rw [hs]
          exact (if_neg h1).trans (if_pos h2)
        rw [hs] at done
        exact done e
      · have e : s.reliefState1 = .opening := by
          unfold Prv.reliefState1
          rw [hs]
          exact (if_neg h1).trans (if_neg h2)
        rw [other (by rw [e]; decide), e]
        intro hy
        unfold Prv.Synced at hy
        rw [hs] at hy
        exact hy.trans (open_mono h (not_lt.1 h2))
  | closing =>
    by_cases h1 : s.control < s.reseat
    · have e : s.reliefState1 = .closed := by
        unfold Prv.reliefState1
        rw [hs]
        exact if_pos h1
      rw [other (by rw [e]; decide), e]
      exact ⟨curve_zero h.okO (h1.le.trans h.reseat.le), .inr (curve_zero h.okC h1.le)⟩
    · by_cases h2 : s.control > s.prev
      · have e : s.reliefState1 = .transitioning := by
          unfold Prv.reliefState1
          rw [hs]
          exact (if_neg h1).trans (if_pos h2)
        rw [hs] at done
        exact done e
      · have e : s.reliefState1 = .closing := by
          unfold Prv.reliefState1
          rw [hs]
          exact (if_neg h1).trans (if_neg h2)
        rw [other (by rw [e]; decide), e]
        intro hy
        unfold Prv.Synced at hy
        rw [hs] at hy
        exact (close_mono h (not_lt.1 h2)).trans hy
  | transitioning =>
    have e : s.reliefState1 = .transitioning := by
      unfold Prv.reliefState1
      rw [hs]
    rw [hs] at done
    exact done e

/-- What the valve aims at in a state. -/
theorem target_cut (h : Relief s) :
    max 0 (min 1 s.reliefTarget) =
      match s.state with
      | .closed => 0
      | .full => 1
      | .opening => s.openCurve s.control
      | .closing => s.closeCurve s.control
      | .transitioning => s.position := by
  unfold Prv.reliefTarget
  cases s.state with
  | closed => exact max_eq_left (min_le_right _ _)
  | full => rw [min_self, max_eq_right zero_le_one]
  | opening =>
    simp only
    rw [h.inc]
    exact line_curve h.okO _
  | closing =>
    simp only
    rw [h.dec]
    exact line_curve h.okC _
  | transitioning =>
    show max 0 (min 1 s.position) = s.position
    rw [min_eq_right h.p1, max_eq_right h.p0]

/-- The valve with its state updated. -/
def Prv.decided (s : Prv K) : Prv K :=
  { s with
    state := s.reliefState }

theorem Relief.decided (h : Relief s) : Relief s.decided := ⟨h.1, h.2, h.3, h.4, h.5, h.6, h.7, h.8, h.9, h.10⟩

/-- The target follows the hysteresis, if the state agrees with the position. -/
theorem target_play (h : Relief s) (hy : s.Synced) :
    max 0 (min 1 s.decided.reliefTarget) = play s.openCurve s.closeCurve s.position s.control := by
  rw [target_cut h.decided]
  have f := state_facts h
  have hoc := open_le_close h s.control
  show (match s.reliefState with
      | .closed => 0
      | .full => 1
      | .opening => s.openCurve s.control
      | .closing => s.closeCurve s.control
      | .transitioning => s.position) = _
  unfold play
  cases hq : s.reliefState with
  | closed =>
    rw [hq] at f
    obtain ⟨f1, f2⟩ := f
    have : min (s.closeCurve s.control) s.position = 0 := by
      rcases f2 with f2 | f2
      · unfold Prv.Synced at hy
        rw [f2] at hy
        rw [hy]
        exact min_eq_right (curve_nonneg h.okC _)
      · rw [f2]
        exact min_eq_left h.p0
    rw [f1, this, max_self]
  | full =>
    rw [hq] at f
    replace f : s.openCurve s.control = 1 := f
    rw [f]
    exact (max_eq_left ((min_le_right _ _).trans h.p1)).symm
  | opening =>
    rw [hq] at f
    exact (max_eq_left ((min_le_right _ _).trans (f hy))).symm
  | closing =>
    rw [hq] at f
    show s.closeCurve s.control = _
    rw [min_eq_left (f hy), max_eq_right hoc]
  | transitioning =>
    rw [hq] at f
    show s.position = _
    rw [min_eq_right f.2, max_eq_right f.1]

/-- The target is between the curves, whatever the state was. -/
theorem target_between (h : Relief s) :
    s.openCurve s.control ≤ max 0 (min 1 s.decided.reliefTarget) ∧
      max 0 (min 1 s.decided.reliefTarget) ≤ s.closeCurve s.control := by
  rw [target_cut h.decided]
  have f := state_facts h
  have hoc := open_le_close h s.control
  show s.openCurve s.control ≤ (match s.reliefState with
      | .closed => 0
      | .full => 1
      | .opening => s.openCurve s.control
      | .closing => s.closeCurve s.control
      | .transitioning => s.position) ∧ (match s.reliefState with
      | .closed => 0
      | .full => 1
      | .opening => s.openCurve s.control
      | .closing => s.closeCurve s.control
      | .transitioning => s.position) ≤ s.closeCurve s.control
  cases hq : s.reliefState with
  | closed =>
    rw [hq] at f
    exact ⟨f.1.le, curve_nonneg h.okC _⟩
  | full =>
    rw [hq] at f
    replace f : s.openCurve s.control = 1 := f
    exact ⟨f.le, f ▸ hoc⟩
  | opening => exact ⟨le_refl _, hoc⟩
  | closing => exact ⟨hoc, le_refl _⟩
  | transitioning =>
    rw [hq] at f
    exact f

/-! ## The step -/

theorem toward_mem {d y t : K} (hd : 0 ≤ d) (h0 : 0 ≤ y) (h1 : y ≤ 1) (t0 : 0 ≤ t) (t1 : t ≤ 1) :
    0 ≤ toward d y t ∧ toward d y t ≤ 1 := by
  unfold toward
  exact ⟨le_max_of_le_right (le_min (by linarith) t0), max_le (by linarith) ((min_le_right _ _).trans t1)⟩

theorem toward_between {d y t : K} (hd : 0 ≤ d) :
    (y ≤ t → y ≤ toward d y t ∧ toward d y t ≤ t) ∧ (t ≤ y → t ≤ toward d y t ∧ toward d y t ≤ y) := by
  unfold toward
  constructor
  · intro h
    exact ⟨le_max_of_le_right (le_min (by linarith) h), max_le (by linarith) (min_le_right _ _)⟩
  · intro h
    refine ⟨?_, max_le (by linarith) ((min_le_right _ _).trans h)⟩
    rw [min_eq_right (by linarith)]
    exact le_max_right _ _

theorem cut_mem (t : K) : 0 ≤ max 0 (min 1 t) ∧ max 0 (min 1 t) ≤ 1 :=
  ⟨le_max_left _ _, max_le zero_le_one (min_le_left _ _)⟩

/-- A free step of the valve, whose control pressure is set. -/
def Prv.moved (s : Prv K) (dt : K) : Prv K := s.decided.move s.decided.reliefTarget dt

theorem moved_position (h : Relief s) {dt : K} (hd : 0 ≤ dt) :
    (s.moved dt).position = toward (s.rate * dt) s.position (max 0 (min 1 s.decided.reliefTarget)) :=
  limit_toward (mul_nonneg h.rate hd) h.p0 h.p1

theorem Relief.moved (h : Relief s) {dt : K} (hd : 0 ≤ dt) : Relief (s.moved dt) := by
  have := toward_mem (mul_nonneg h.rate hd) h.p0 h.p1 (cut_mem s.decided.reliefTarget).1
    (cut_mem s.decided.reliefTarget).2
  rw [← moved_position h hd] at this
  exact ⟨h.1, h.2, h.3, h.4, h.5, h.6, h.7, h.8, this.1, this.2⟩

/-- The state after a free step agrees with the position, if it did before or if the rate limit did not bind. -/
theorem moved_synced (h : Relief s) {dt : K} (hd : 0 ≤ dt) (hy : s.Synced ∨ 1 ≤ s.rate * dt) :
    { s.moved dt with
      prev := s.control }.Synced := by
  have hr := mul_nonneg h.rate hd
  have e := moved_position h hd
  have hm := h.moved hd
  have free : 1 ≤ s.rate * dt → ∀ t, 0 ≤ t → t ≤ 1 → toward (s.rate * dt) s.position t = t := by
    intro h1 t t0 t1
    unfold toward
    have := h.p0
    have := h.p1
    rw [min_eq_right (by linarith), max_eq_right (by linarith)]
  have t := target_cut h.decided
  have f := state_facts h
  replace t : max 0 (min 1 s.decided.reliefTarget) = (match s.reliefState with
      | .closed => 0
      | .full => 1
      | .opening => s.openCurve s.control
      | .closing => s.closeCurve s.control
      | .transitioning => s.position) := t
  have hst : (s.moved dt).state = if (s.moved dt).position > 0 ∧ s.reliefState = .closed then .closing
    else if (s.moved dt).position < 1 ∧ s.reliefState = .full then .opening
    else s.reliefState := rfl
  rw [t] at e
  clear t
  show (match (s.moved dt).state with
    | .closed => (s.moved dt).position = 0
    | .full => (s.moved dt).position = 1
    | .opening => (s.moved dt).position ≤ s.openCurve s.control
    | .closing => s.closeCurve s.control ≤ (s.moved dt).position
    | .transitioning => True)
  rw [hst]
  cases hq : s.reliefState with
  | closed =>
    rw [hq] at f e
    by_cases h1 : (s.moved dt).position > 0
    · rw [if_pos ⟨h1, rfl⟩]
      show s.closeCurve s.control ≤ (s.moved dt).position
      rcases hy with hy | hy
      · rcases f.2 with f2 | f2
        · exfalso
          unfold Prv.Synced at hy
          rw [f2] at hy
          replace hy : s.position = 0 := hy
          rw [hy] at e
          have := (toward_between hr (y := (0 : K)) (t := 0)).1 (le_refl _)
          replace e : (s.moved dt).position = toward (s.rate * dt) 0 0 := e
          rw [← e] at this
          exact absurd h1 (not_lt.2 this.2)
        · rw [f2]
          exact h1.le
      · exfalso
        rw [free hy 0 (le_refl _) zero_le_one] at e
        exact absurd h1 (by rw [e]; exact lt_irrefl _)
    · rw [if_neg (fun c => h1 c.1), if_neg (fun c => by cases c.2)]
      exact le_antisymm (not_lt.1 h1) hm.p0
  | full =>
    rw [hq] at f e
    rw [if_neg (fun c => by cases c.2)]
    by_cases h1 : (s.moved dt).position < 1
    · rw [if_pos ⟨h1, rfl⟩]
      show (s.moved dt).position ≤ s.openCurve s.control
      rw [show s.openCurve s.control = 1 from f]
      exact h1.le
    · rw [if_neg (fun c => h1 c.1)]
      exact le_antisymm hm.p1 (not_lt.1 h1)
  | opening =>
    rw [hq] at f e
    rw [if_neg (fun c => by cases c.2), if_neg (fun c => by cases c.2)]
    show (s.moved dt).position ≤ s.openCurve s.control
    rw [e]
    rcases hy with hy | hy
    · exact ((toward_between hr).1 (f hy)).2
    · exact (free hy _ (curve_nonneg h.okO _) (curve_le_one h.okO _)).le
  | closing =>
    rw [hq] at f e
    rw [if_neg (fun c => by cases c.2), if_neg (fun c => by cases c.2)]
    show s.closeCurve s.control ≤ (s.moved dt).position
    rw [e]
    rcases hy with hy | hy
    · exact ((toward_between hr).2 (f hy)).1
    · exact (free hy _ (curve_nonneg h.okC _) (curve_le_one h.okC _)).ge
  | transitioning =>
    rw [if_neg (fun c => by cases c.2), if_neg (fun c => by cases c.2)]
    exact trivial

/-! ## The whole step -/

/-- The leak and the conductivity do not touch what moves the valve. -/
theorem conduct_frame (s : Prv K) (x : In K) :
    ∃ a b c, s.conduct x = { s with
      prevLeak := a
      leakCond := b
      effCond := c } := by
  unfold Prv.conduct
  by_cases h1 : x.leak
  · by_cases h2 : s.prevLeak ≠ x.leakRate
    · simp only [if_pos h1, if_pos h2]
      exact ⟨_, _, _, rfl⟩
    · simp only [if_pos h1, if_neg h2]
      exact ⟨s.prevLeak, s.leakCond, _, rfl⟩
  · simp only [if_neg h1]
    exact ⟨_, _, _, rfl⟩

theorem blocked_frame (s : Prv K) (x : In K) :
    ∃ c, s.blocked x = { s with
      effCond := c } := by
  unfold Prv.blocked
  by_cases h1 : x.block
  · rw [if_pos h1]
    exact ⟨_, rfl⟩
  · rw [if_neg h1]
    exact ⟨s.effCond, rfl⟩

/-- A step of a relief valve with a given control pressure. -/
def Prv.turned (s : Prv K) (x : In K) (target : K) : Prv K :=
  { s.place x target with
    prev := s.control }

theorem place_control (s : Prv K) (x : In K) (t : K) : (s.place x t).control = s.control := by
  unfold Prv.place
  by_cases h1 : x.stuck
  · rw [if_pos h1]
  · rw [if_neg h1]
    by_cases h2 : x.fail
    · rw [if_pos h2]
    · rw [if_neg h2]
      rfl

/-- The valve with its control pressure set. -/
def Prv.sensed (s : Prv K) (x : In K) : Prv K :=
  { s with
    control := s.controlPressure x }

theorem reliefStep_frame (s : Prv K) (x : In K) :
    ∃ a b c, s.reliefStep x = { (s.sensed x).decided.turned x (s.sensed x).decided.reliefTarget with
      prevLeak := a
      leakCond := b
      effCond := c } := by
  obtain ⟨t, ht⟩ : ∃ t, t = (s.sensed x).decided.turned x (s.sensed x).decided.reliefTarget := ⟨_, rfl⟩
  have e : s.reliefStep x = (t.conduct x).blocked x := by
    rw [ht]
    unfold Prv.turned
    rw [← place_control _ x (s.sensed x).decided.reliefTarget]
    rfl
  obtain ⟨a, b, c, h1⟩ := conduct_frame t x
  obtain ⟨d, h2⟩ := blocked_frame (t.conduct x) x
  rw [e, h2, h1, ← ht]
  exact ⟨a, b, d, rfl⟩

theorem Relief.sensed (h : Relief s) (x : In K) : Relief (s.sensed x) :=
  ⟨h.1, h.2, h.3, h.4, h.5, h.6, h.7, h.8, h.9, h.10⟩

theorem limitRange_mem (t : K) : 0 ≤ limitRange 0 t 1 ∧ limitRange 0 t 1 ≤ 1 :=
  ⟨le_max_right _ _, max_le (min_le_right _ _) zero_le_one⟩

/-- A step keeps the configuration, and the position in its range. -/
theorem Relief.step (h : Relief s) (x : In K) (hd : 0 ≤ x.dt) : Relief (s.reliefStep x) := by
  obtain ⟨a, b, c, e⟩ := reliefStep_frame s x
  rw [e]
  obtain ⟨q, hq⟩ : ∃ q, q = s.sensed x := ⟨_, rfl⟩
  have hr : Relief q := hq ▸ h.sensed x
  rw [← hq]
  have : Relief (q.decided.turned x q.decided.reliefTarget) := by
    unfold Prv.turned Prv.place
    by_cases h1 : x.stuck
    · rw [if_pos h1]
      have := hr.decided
      exact ⟨this.1, this.2, this.3, this.4, this.5, this.6, this.7, this.8, this.9, this.10⟩
    · rw [if_neg h1]
      by_cases h2 : x.fail
      · rw [if_pos h2]
        have := hr.decided
        exact ⟨this.1, this.2, this.3, this.4, this.5, this.6, this.7, this.8, (limitRange_mem _).1,
          (limitRange_mem _).2⟩
      · rw [if_neg h2]
        have := hr.moved hd
        exact ⟨this.1, this.2, this.3, this.4, this.5, this.6, this.7, this.8, this.9, this.10⟩
  exact ⟨this.1, this.2, this.3, this.4, this.5, this.6, this.7, this.8, this.9, this.10⟩

/-- A step keeps the configuration. -/
theorem step_config (s : Prv K) (x : In K) :
    (s.reliefStep x).rate = s.rate ∧ (s.reliefStep x).reseat = s.reseat ∧ (s.reliefStep x).crack = s.crack ∧
    (s.reliefStep x).fullOpen = s.fullOpen ∧ (s.reliefStep x).pop = s.pop ∧ (s.reliefStep x).scale = s.scale ∧
    (s.reliefStep x).inlet0 = s.inlet0 ∧ (s.reliefStep x).inlet1 = s.inlet1 ∧
    (s.reliefStep x).maxCond = s.maxCond := by
  obtain ⟨a, b, c, e⟩ := reliefStep_frame s x
  rw [e]
  obtain ⟨q, hq⟩ : ∃ q, q = s.sensed x := ⟨_, rfl⟩
  have f : q.rate = s.rate ∧ q.reseat = s.reseat ∧ q.crack = s.crack ∧ q.fullOpen = s.fullOpen ∧ q.pop = s.pop ∧
      q.scale = s.scale ∧ q.inlet0 = s.inlet0 ∧ q.inlet1 = s.inlet1 ∧ q.maxCond = s.maxCond := by
    rw [hq]
    exact ⟨rfl, rfl, rfl, rfl, rfl, rfl, rfl, rfl, rfl⟩
  rw [← hq]
  unfold Prv.turned Prv.place
  by_cases h1 : x.stuck
  · rw [if_pos h1]
    exact f
  · rw [if_neg h1]
    by_cases h2 : x.fail
    · rw [if_pos h2]
      exact f
    · rw [if_neg h2]
      exact f

/-- A free step: the position and the agreement of state and position. -/
theorem free_step (h : Relief s) (x : In K) (hd : 0 ≤ x.dt) (hs : x.stuck = false) (hf : x.fail = false) :
    (s.reliefStep x).position = toward (s.rate * x.dt) s.position
      (max 0 (min 1 (s.sensed x).decided.reliefTarget)) ∧
    (s.Synced ∨ 1 ≤ s.rate * x.dt → (s.reliefStep x).Synced) := by
  obtain ⟨a, b, c, e⟩ := reliefStep_frame s x
  rw [e]
  obtain ⟨q, hq⟩ : ∃ q, q = s.sensed x := ⟨_, rfl⟩
  have hr : Relief q := hq ▸ h.sensed x
  have e1 : q.rate = s.rate := by rw [hq]; rfl
  have e2 : q.position = s.position := by rw [hq]; rfl
  have e3 : s.Synced → q.Synced := by rw [hq]; exact id
  rw [← hq]
  have et : q.decided.turned x q.decided.reliefTarget = { q.moved x.dt with
      prev := q.control } := by
    unfold Prv.turned Prv.place
    rw [if_neg (by rw [hs]; decide), if_neg (by rw [hf]; decide)]
    rfl
  constructor
  · show (q.decided.turned x q.decided.reliefTarget).position = _
    rw [et, ← e1, ← e2]
    exact moved_position hr hd
  · intro hy
    have : (q.decided.turned x q.decided.reliefTarget).Synced := by
      rw [et]
      exact moved_synced hr hd (hy.imp e3 (fun h => by rw [e1]; exact h))
    exact this

/-! ## Regulator valves: relief valves seen in a mirror -/

/-- The coefficients with the pressure reversed. -/
def Branch.flip (b : Branch K) : Branch K :=
  { popM := -b.popM
    popMInv := -b.popMInv
    popB := b.popB
    popP := -b.popP
    nomM := -b.nomM
    nomMInv := -b.nomMInv
    nomB := b.nomB }

theorem flip_make (start full pop scale : K) :
    (Branch.make start full pop scale).flip = Branch.make (-start) (-full) pop scale := by
  have e1 : -(1 / (full - start) * scale) = 1 / (-full - -start) * scale := by
    rw [show -full - -start = -(full - start) by ring, one_div_neg_eq_neg_one_div]
    ring
  have e2 : -(1 / (1 / (full - start) * scale)) = 1 / (1 / (-full - -start) * scale) := by
    rw [← e1, one_div_neg_eq_neg_one_div]
  have e3 : -(1 / (full - start) * scale) * start = -(1 / (-full - -start) * scale) * -start := by
    rw [← e1]
    ring
  have e4 : -((pop - -(1 / (full - start) * scale) * start) * (1 / (1 / (full - start) * scale))) =
      (pop - -(1 / (-full - -start) * scale) * -start) * (1 / (1 / (-full - -start) * scale)) := by
    rw [← e3, ← e2]
    ring
  have e5 : -((1 - pop) / (full - (pop - -(1 / (full - start) * scale) * start) *
      (1 / (1 / (full - start) * scale)))) =
      (1 - pop) / (-full - (pop - -(1 / (-full - -start) * scale) * -start) *
        (1 / (1 / (-full - -start) * scale))) := by
    rw [← e4, ← div_neg]
    congr 1
    ring
  unfold Branch.flip Branch.make
  simp only [Branch.mk.injEq]
  refine ⟨e1, e2, e3, e4, e5, ?_, ?_⟩
  · rw [← e5, one_div_neg_eq_neg_one_div]
  · rw [← e5]
    ring

/-- The valve with all pressures reversed. -/
def Prv.mirror (s : Prv K) : Prv K :=
  { s with
    inlet0 := -s.inlet0
    inlet1 := -s.inlet1
    reseat := -s.reseat
    crack := -s.crack
    fullOpen := -s.fullOpen
    inc := s.dec.flip
    dec := s.inc.flip
    control := -s.control
    prev := -s.prev }

/-- The inputs with all control pressures reversed. -/
def In.mirror (x : In K) : In K :=
  { x with
    p2 := x.p3
    p3 := x.p2
    biasValue := -x.biasValue
    setBias := -x.setBias }

theorem mirror_control (s : Prv K) (x : In K) : s.mirror.controlPressure x.mirror = -s.controlPressure x := by
  show (if x.bias then x.p3 - x.p2 + -x.biasValue else x.p3 - x.p2) - -x.setBias -
    (-s.inlet0 + -s.inlet1 * x.p0) = -((if x.bias then x.p2 - x.p3 + x.biasValue else x.p2 - x.p3) - x.setBias -
    (s.inlet0 + s.inlet1 * x.p0))
  split_ifs <;> ring

theorem mirror_at (s : Prv K) (b : Branch K) : s.mirror.at b.flip = -s.at b := by
  unfold Prv.at
  show (if s.position ≤ s.pop then (s.position - b.popB) * -b.popMInv else (s.position - b.nomB) * -b.nomMInv) = _
  split_ifs <;> ring

theorem mirror_state1 (s : Prv K) : s.mirror.reliefState1 = s.regulatorState1 := by
  unfold Prv.reliefState1 Prv.regulatorState1
  show (match s.state with
    | .full => if -s.control < -s.fullOpen then _ else _
    | .closed => if -s.control > -s.crack then _ else _
    | .opening => if -s.control > -s.fullOpen then _
      else if -s.control < -s.prev then _ else _
    | .closing => if -s.control < -s.reseat then _
      else if -s.control > -s.prev then _ else _
    | .transitioning => _) = _
  cases s.state <;> simp only [gt_iff_lt, neg_lt_neg_iff]

theorem dec_le_inc (h : Relief s) : s.at s.dec ≤ s.at s.inc := by
  rw [Prv.at_eq, Prv.at_eq, h.inc, h.dec]
  exact inv_le h.reseat.le h.okC h.okO h.p1

theorem mirror_state (s : Prv K) (h : Relief s.mirror) : s.mirror.reliefState = s.regulatorState := by
  have hle := dec_le_inc h
  have e1 : s.mirror.at s.mirror.inc = -s.at s.dec := mirror_at s s.dec
  have e2 : s.mirror.at s.mirror.dec = -s.at s.inc := mirror_at s s.inc
  have e3 : s.mirror.control = -s.control := rfl
  rw [e1, e2] at hle
  unfold Prv.reliefState Prv.regulatorState
  rw [mirror_state1, e1, e2, e3]
  by_cases h1 : s.regulatorState1 = .transitioning
  · rw [if_pos h1, if_pos h1]
    by_cases h2 : s.control > s.at s.inc
    · rw [if_neg (by linarith), if_pos (by linarith), if_pos h2]
    · rw [if_neg h2]
      by_cases h3 : s.control < s.at s.dec
      · rw [if_pos (by linarith), if_pos h3]
      · rw [if_neg (by linarith), if_neg (by linarith), if_neg h3]
  · rw [if_neg h1, if_neg h1]

theorem mirror_target (s : Prv K) : s.mirror.reliefTarget = s.regulatorTarget := by
  unfold Prv.reliefTarget Prv.regulatorTarget
  show (match s.state with
    | .closed => 0
    | .full => 1
    | .opening => if -s.control ≤ -s.dec.popP then s.dec.popB + -s.dec.popM * -s.control
      else s.dec.nomB + -s.dec.nomM * -s.control
    | .closing => if -s.control ≤ -s.inc.popP then s.inc.popB + -s.inc.popM * -s.control
      else s.inc.nomB + -s.inc.nomM * -s.control
    | .transitioning => s.position) = _
  cases s.state <;> simp only [neg_le_neg_iff, neg_mul_neg, ge_iff_le]

theorem mirror_conduct (s : Prv K) (x : In K) : (s.conduct x).mirror = s.mirror.conduct x.mirror := by
  unfold Prv.conduct
  by_cases h1 : x.leak
  · by_cases h2 : s.prevLeak ≠ x.leakRate
    · have h2' : s.mirror.prevLeak ≠ x.mirror.leakRate := h2
      have h1' : x.mirror.leak := h1
      simp only [if_pos h1, if_pos h2, if_pos h1', if_pos h2']
      rfl
    · have h2' : ¬s.mirror.prevLeak ≠ x.mirror.leakRate := h2
      have h1' : x.mirror.leak := h1
      simp only [if_pos h1, if_neg h2, if_pos h1', if_neg h2']
      rfl
  · have h1' : ¬x.mirror.leak := h1
    simp only [if_neg h1, if_neg h1']
    rfl

theorem mirror_blocked (s : Prv K) (x : In K) : (s.blocked x).mirror = s.mirror.blocked x.mirror := by
  unfold Prv.blocked
  by_cases h1 : x.block
  · have h1' : x.mirror.block := h1
    rw [if_pos h1, if_pos h1']
    rfl
  · have h1' : ¬x.mirror.block := h1
    rw [if_neg h1, if_neg h1']

theorem mirror_place (s : Prv K) (x : In K) (t : K) : (s.place x t).mirror = s.mirror.place x.mirror t := by
  unfold Prv.place
  by_cases h1 : x.stuck
  · have h1' : x.mirror.stuck := h1
    rw [if_pos h1, if_pos h1']
  · have h1' : ¬x.mirror.stuck := h1
    rw [if_neg h1, if_neg h1']
    by_cases h2 : x.fail
    · have h2' : x.mirror.fail := h2
      rw [if_pos h2, if_pos h2']
      rfl
    · have h2' : ¬x.mirror.fail := h2
      rw [if_neg h2, if_neg h2']
      rfl

/-- A regulator valve is a relief valve in a mirror. -/
theorem mirror_step (s : Prv K) (x : In K) (h : Relief s.mirror) :
    (s.regulatorStep x).mirror = s.mirror.reliefStep x.mirror := by
  obtain ⟨q, hq⟩ : ∃ q, q = s.sensed x := ⟨_, rfl⟩
  have em : s.mirror.sensed x.mirror = q.mirror := by
    unfold Prv.sensed
    rw [mirror_control, hq]
    rfl
  have hr : Relief q.mirror := em ▸ h.sensed x.mirror
  have e1 : s.regulatorStep x = (q.regulatorUpdate x).blocked x := by rw [hq]; rfl
  have e2 : s.mirror.reliefStep x.mirror = (q.mirror.reliefUpdate x.mirror).blocked x.mirror := by
    rw [← em]
    rfl
  rw [e1, e2, mirror_blocked]
  congr 1
  obtain ⟨r, hr'⟩ : ∃ r : Prv K, r = { q with
    state := q.regulatorState } := ⟨_, rfl⟩
  have e3 : q.mirror.decided = r.mirror := by
    unfold Prv.decided
    rw [mirror_state q hr, hr']
    rfl
  have e4 : q.regulatorUpdate x = ({ r.place x r.regulatorTarget with
      prev := (r.place x r.regulatorTarget).control } : Prv K).conduct x := by
    rw [hr']
    rfl
  have e5 : q.mirror.reliefUpdate x.mirror = ({ r.mirror.place x.mirror r.mirror.reliefTarget with
      prev := (r.mirror.place x.mirror r.mirror.reliefTarget).control } : Prv K).conduct x.mirror := by
    rw [← e3]
    rfl
  rw [e4, e5, mirror_conduct, mirror_target, ← mirror_place]
  rfl

end Gunns.FluidValve
