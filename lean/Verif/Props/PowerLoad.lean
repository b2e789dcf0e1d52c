import Mathlib.Tactic.Linarith
import Mathlib.Tactic.Positivity
import Mathlib.Tactic.Ring
import Mathlib.Tactic.FieldSimp
import Mathlib.Tactic.NormNum
import Verif.Elect.PowerLoad

/-!
# C107: the constant power load
-/

set_option linter.unusedSectionVars false

namespace Gunns.Props

open Gunns Gunns.PowLoad
open Gunns.Elements (systemConductance limitRange conductanceLimit eps100)

variable {K : Type _} [Field K] [LinearOrder K] [IsStrictOrderedRing K]

/-- The voltage from which on the power is constant: 99 percent of the limit, or the machine epsilon. -/
def c107least (c : PowLoad.Cfg K) : K := max (99 / 100 * c.least) dblEps

/-- The power that is asked for. -/
def c107power (c : PowLoad.Cfg K) (s : PowLoad.State K) : K := s.desired + c.bias

private theorem least_pos (c : PowLoad.Cfg K) : 0 < c107least c := lt_of_lt_of_le dblEps_pos (le_max_right _ _)

private theorem eff_eq (c : PowLoad.Cfg K) (p0 p1 : K) (s : PowLoad.State K) : (PowLoad.step c p0 p1 s).eff =
    if 0 ≤ p0 - p1 then limitRange 0 (c107power c s / (max (p0 - p1) (c107least c) * max (p0 - p1) (c107least c))) conductanceLimit else 0 := rfl

private theorem sys_eq (c : PowLoad.Cfg K) (p0 p1 : K) (s : PowLoad.State K) :
    (PowLoad.step c p0 p1 s).sys = systemConductance (PowLoad.step c p0 p1 s).eff c.block := rfl

/-- The share that a blockage leaves. -/
def c107share (c : PowLoad.Cfg K) : K := match c.block with
  | some b => 1 - b
  | none => 1

private theorem sys_share {c : PowLoad.Cfg K} (hb : 0 ≤ c107share c ∧ c107share c ≤ 1) {p0 p1 : K} (hv : 0 ≤ p0 - p1) {s : PowLoad.State K}
    (hp : 0 ≤ c107power c s) : (PowLoad.step c p0 p1 s).sys =
      c107share c * min (c107power c s / (max (p0 - p1) (c107least c)) ^ 2) (10 ^ 15) := by
  have hx : 0 < max (p0 - p1) (c107least c) := lt_of_lt_of_le (least_pos c) (le_max_right _ _)
  have hq : 0 ≤ c107power c s / (max (p0 - p1) (c107least c)) ^ 2 := div_nonneg hp (by positivity)
  have hm : 0 ≤ min (c107power c s / (max (p0 - p1) (c107least c)) ^ 2) (10 ^ 15 : K) := le_min hq (by positivity)
  have he : (PowLoad.step c p0 p1 s).eff = min (c107power c s / (max (p0 - p1) (c107least c)) ^ 2) (10 ^ 15) := by
    rw [eff_eq, if_pos hv]
    unfold limitRange conductanceLimit
    rw [← sq, max_eq_left hm]
  rw [sys_eq, he]
  have e : systemConductance (min (c107power c s / (max (p0 - p1) (c107least c)) ^ 2) (10 ^ 15)) c.block
      = limitRange 0 (c107share c * min (c107power c s / (max (p0 - p1) (c107least c)) ^ 2) (10 ^ 15)) conductanceLimit := by
    unfold systemConductance c107share
    cases c.block with
    | none => simp
    | some b => simp [mul_comm]
  rw [e]
  unfold limitRange conductanceLimit
  have h1 : c107share c * min (c107power c s / (max (p0 - p1) (c107least c)) ^ 2) (10 ^ 15 : K) ≤ 10 ^ 15 := by
    refine le_trans (mul_le_of_le_one_left hm hb.2) (min_le_right _ _)
  rw [min_eq_left h1, max_eq_left (mul_nonneg hb.1 hm)]

/-- At the potentials of its last step the load draws the power that is asked for, times the share a blockage leaves; under the least voltage it draws as a
resistor that has the power at the least voltage; and backward it draws nothing. The draw it reports is that of the pass before. -/
theorem c107_draw {c : PowLoad.Cfg K} (hb : 0 ≤ c107share c ∧ c107share c ≤ 1) {p0 p1 : K} {s : PowLoad.State K} (hp : 0 ≤ c107power c s)
    (hl : c107power c s ≤ 10 ^ 15 * (max (p0 - p1) (c107least c)) ^ 2) (hf : max p0 p1 * (100 * dblEps) ≤ |p0 - p1|) :
    let t := flows p0 p1 (PowLoad.step c p0 p1 s)
    (c107least c ≤ p0 - p1 → -t.power = c107share c * c107power c s)
      ∧ (0 ≤ p0 - p1 → p0 - p1 ≤ c107least c → -t.power * c107least c ^ 2 = c107share c * c107power c s * (p0 - p1) ^ 2)
      ∧ (p0 < p1 → t.flux = 0 ∧ t.power = 0)
      ∧ t.power = -(t.flux * (p0 - p1))
      ∧ ∀ q0 q1, (PowLoad.step c q0 q1 t).draw = -t.power ∧ (minorStep c q0 q1 (PowLoad.step c p0 p1 s)).draw = -(flows q0 q1 (PowLoad.step c p0 p1 s)).power := by
  intro t
  have hx : 0 < max (p0 - p1) (c107least c) := lt_of_lt_of_le (least_pos c) (le_max_right _ _)
  have tf : t.flux = (p0 - p1) * (PowLoad.step c p0 p1 s).sys := if_neg (not_lt.mpr hf)
  have tp : t.power = -t.flux * (p0 - p1) := rfl
  have hs : 0 ≤ p0 - p1 → (PowLoad.step c p0 p1 s).sys = c107share c * (c107power c s / (max (p0 - p1) (c107least c)) ^ 2) := fun hv => by
    rw [sys_share hb hv hp, min_eq_left]
    rw [div_le_iff₀ (by positivity)]
    exact hl
  refine ⟨fun hv => ?_, fun hv hv' => ?_, fun hv => ?_, by rw [tp]; ring, fun q0 q1 => ⟨?_, ?_⟩⟩
  · have h0 : 0 < p0 - p1 := lt_of_lt_of_le (least_pos c) hv
    rw [tp, tf, hs h0.le, max_eq_left hv]
    field_simp
  · have := (least_pos c).ne'
    rw [tp, tf, hs hv, max_eq_right hv']
    field_simp
  · have e0 : (PowLoad.step c p0 p1 s).sys = 0 := by
      rw [sys_eq, eff_eq, if_neg (by linarith)]
      unfold systemConductance limitRange conductanceLimit
      cases c.block <;> simp
    rw [tp, tf, e0]
    simp
  · show -1 * t.power = -t.power
    ring
  · show -1 * (flows q0 q1 (PowLoad.step c p0 p1 s)).power = _
    ring

/-- The nominal potential given along with a power has no effect on any later step. -/
theorem c107_nominal (c : PowLoad.Cfg K) (power v w p0 p1 : K) (s : PowLoad.State K) :
    PowLoad.step c p0 p1 (setPower c power v s) = PowLoad.step c p0 p1 (setPower c power w s) ∧
      PowLoad.step c p0 p1 (setPower c power v s) = PowLoad.step c p0 p1 { s with desired := power } ∧
      (setPower c power v s).desired = power := ⟨rfl, rfl, rfl⟩

/-- A pass of a circuit in which the load hangs on a source of the potential `e` behind the conductance `gs`: the load is stepped at the potential it has, and the
circuit is solved with its conductance. -/
def c107pass (c : PowLoad.Cfg K) (gs e : K) (x : K × PowLoad.State K) : K × PowLoad.State K :=
  let s := minorStep c x.1 0 x.2
  (gs * e / (gs + s.sys), s)

private theorem desired_iter (c : PowLoad.Cfg K) (gs e : K) (n : ℕ) (x : K × PowLoad.State K) :
    ((c107pass c gs e)^[n] x).2.desired = x.2.desired := by
  induction n with
  | zero => rfl
  | succ n ih => rw [Function.iterate_succ_apply']; exact ih

private theorem power_iter (c : PowLoad.Cfg K) (gs e : K) (n : ℕ) (x : K × PowLoad.State K) :
    c107power c ((c107pass c gs e)^[n] x).2 = c107power c x.2 := by
  unfold c107power
  rw [desired_iter]

private theorem pass_eq {c : PowLoad.Cfg K} (hb : c.block = none) {gs e : K} (x : K × PowLoad.State K) (hv : 0 ≤ x.1) (hp : 0 ≤ c107power c x.2) :
    (c107pass c gs e x).1 = gs * e / (gs + min (c107power c x.2 / (max x.1 (c107least c)) ^ 2) (10 ^ 15)) := by
  have hs : c107share c = 1 := by unfold c107share; rw [hb]
  have h := sys_share (c := c) (by rw [hs]; exact ⟨zero_le_one, le_refl _⟩) (p0 := x.1) (p1 := 0) (by linarith) (s := flows x.1 0 x.2) hp
  show gs * e / (gs + (PowLoad.step c x.1 0 (flows x.1 0 x.2)).sys) = _
  rw [h, hs, one_mul, sub_zero]
  rfl

private theorem pass_nonneg {c : PowLoad.Cfg K} (hb : c.block = none) {gs e : K} (hg : 0 < gs) (he : 0 ≤ e) (x : K × PowLoad.State K) (hv : 0 ≤ x.1)
    (hp : 0 ≤ c107power c x.2) : 0 ≤ (c107pass c gs e x).1 := by
  rw [pass_eq hb x hv hp]
  have : 0 ≤ min (c107power c x.2 / (max x.1 (c107least c)) ^ 2) (10 ^ 15 : K) := le_min (div_nonneg hp (by positivity)) (by positivity)
  exact div_nonneg (mul_nonneg hg.le he) (by linarith)

/-- The potential after a pass without limit on the conductance, in terms of the potential that the load has, `y`. -/
private theorem pass_free {c : PowLoad.Cfg K} (hb : c.block = none) {gs e : K} (hg : 0 < gs) (x : K × PowLoad.State K) (hv : 0 ≤ x.1) (hp : 0 ≤ c107power c x.2)
    (hl : c107power c x.2 ≤ 10 ^ 15 * (max x.1 (c107least c)) ^ 2) :
    (c107pass c gs e x).1 = e * (max x.1 (c107least c)) ^ 2 / ((max x.1 (c107least c)) ^ 2 + c107power c x.2 / gs) := by
  have hx : 0 < max x.1 (c107least c) := lt_of_lt_of_le (least_pos c) (le_max_right _ _)
  have h1 : c107power c x.2 / (max x.1 (c107least c)) ^ 2 ≤ 10 ^ 15 := by
    rw [div_le_iff₀ (by positivity)]
    exact hl
  rw [pass_eq hb x hv hp, min_eq_left h1]
  have := hg.ne'
  have h2 : gs * (max x.1 (c107least c)) ^ 2 + c107power c x.2 ≠ 0 := by
    have : 0 < gs * (max x.1 (c107least c)) ^ 2 := by positivity
    linarith
  have h3 : gs + c107power c x.2 / (max x.1 (c107least c)) ^ 2 ≠ 0 := by
    have : 0 ≤ c107power c x.2 / (max x.1 (c107least c)) ^ 2 := div_nonneg hp (by positivity)
    linarith
  have h4 : (max x.1 (c107least c)) ^ 2 + c107power c x.2 / gs ≠ 0 := by
    have : 0 ≤ c107power c x.2 / gs := div_nonneg hp hg.le
    have : 0 < (max x.1 (c107least c)) ^ 2 := by positivity
    linarith
  rw [div_eq_div_iff h3 h4]
  field_simp

private theorem contract {u w m y : K} (hu : 0 ≤ u) (hm : u < m) (hw : m ≤ w) (hy : m ≤ y) :
    m ≤ (u + w) * y ^ 2 / (y ^ 2 + u * w) ∧ |(u + w) * y ^ 2 / (y ^ 2 + u * w) - w| ≤ u * (m + w) / (m ^ 2 + u * w) * |y - w| := by
  have hm0 : 0 < m := by linarith
  have hy0 : 0 < y := by linarith
  have hw0 : 0 < w := by linarith
  have huw : 0 ≤ u * w := mul_nonneg hu hw0.le
  have hd : 0 < y ^ 2 + u * w := by positivity
  have hd' : 0 < m ^ 2 + u * w := by positivity
  refine ⟨?_, ?_⟩
  · rw [le_div_iff₀ hd]
    have h1 : 0 ≤ (u + w - m) * (y ^ 2 - m ^ 2) := mul_nonneg (by linarith) (by nlinarith)
    have h2 : 0 ≤ m * ((m - u) * (w - m)) := mul_nonneg hm0.le (mul_nonneg (by linarith) (by linarith))
    nlinarith
  · have e1 : (u + w) * y ^ 2 / (y ^ 2 + u * w) - w = u * (y + w) / (y ^ 2 + u * w) * (y - w) := by
      field_simp
      ring
    rw [e1, abs_mul]
    refine mul_le_mul_of_nonneg_right ?_ (abs_nonneg _)
    rw [abs_of_nonneg (div_nonneg (mul_nonneg hu (by linarith)) hd.le), div_le_div_iff₀ hd hd']
    have h3 : 0 ≤ (y - m) * (m * y + w * (y + m) - w * u) := by
      refine mul_nonneg (by linarith) ?_
      have : 0 ≤ w * (y - u) := mul_nonneg hw0.le (by linarith)
      have : 0 ≤ w * m := by positivity
      have : 0 ≤ m * y := by positivity
      nlinarith
    have h4 : (m + w) * (y ^ 2 + u * w) - (y + w) * (m ^ 2 + u * w) = (y - m) * (m * y + w * (y + m) - w * u) := by ring
    have h5 : 0 ≤ u * ((m + w) * (y ^ 2 + u * w) - (y + w) * (m ^ 2 + u * w)) := mul_nonneg hu (by rw [h4]; exact h3)
    nlinarith

/-- If the source can give the power at two voltages `u < w`, and a voltage `m` between them is the least voltage of the load or no more than the first potential,
the passes go to `w` with a constant ratio under one, and stay from `m` on: there the load draws just its power. -/
theorem c107_converges {c : PowLoad.Cfg K} (hb : c.block = none) {gs e u w m : K} (hg : 0 < gs) (hu : 0 ≤ u) (hm : u < m) (hw : m ≤ w) (he : e = u + w)
    (x : K × PowLoad.State K) (hp : gs * (u * w) = c107power c x.2) (hl : c107least c ≤ m) (hlim : c107power c x.2 ≤ 10 ^ 15 * m ^ 2) (hv : 0 ≤ x.1)
    (hs : m ≤ x.1 ∨ m = c107least c) :
    u * (m + w) / (m ^ 2 + u * w) < 1 ∧ ∀ n, 1 ≤ n → m ≤ ((c107pass c gs e)^[n] x).1
      ∧ |((c107pass c gs e)^[n] x).1 - w| ≤ (u * (m + w) / (m ^ 2 + u * w)) ^ n * |max x.1 m - w| := by
  have hm0 : 0 < m := by linarith
  have hw0 : 0 < w := by linarith
  have huw : 0 ≤ u * w := mul_nonneg hu hw0.le
  have hd' : 0 < m ^ 2 + u * w := by positivity
  have hq0 : 0 ≤ u * (m + w) / (m ^ 2 + u * w) := div_nonneg (mul_nonneg hu (by linarith)) hd'.le
  have hp0 : 0 ≤ c107power c x.2 := by rw [← hp]; exact mul_nonneg hg.le huw
  have one : ∀ z : K × PowLoad.State K, 0 ≤ z.1 → c107power c z.2 = c107power c x.2 → m ≤ max z.1 (c107least c) →
      m ≤ (c107pass c gs e z).1 ∧ |(c107pass c gs e z).1 - w| ≤ u * (m + w) / (m ^ 2 + u * w) * |max z.1 (c107least c) - w| := fun z h0 hz hmz => by
    have hlz : c107power c z.2 ≤ 10 ^ 15 * (max z.1 (c107least c)) ^ 2 := by
      rw [hz]
      refine hlim.trans (mul_le_mul_of_nonneg_left ?_ (by positivity))
      exact pow_le_pow_left₀ hm0.le hmz 2
    have hpg : c107power c z.2 / gs = u * w := by
      rw [hz, ← hp]
      have := hg.ne'
      field_simp
    rw [pass_free hb hg z h0 (by rw [hz]; exact hp0) hlz, hpg, he]
    exact contract hu hm hw hmz
  refine ⟨?_, ?_⟩
  · rw [div_lt_one hd']
    have : 0 < m * (m - u) := mul_pos hm0 (by linarith)
    nlinarith
  · intro n hn
    induction n, hn using Nat.le_induction with
    | base =>
      have h0 : max x.1 (c107least c) = max x.1 m := by
        rcases hs with hs | hs
        · rw [max_eq_left hs, max_eq_left (hl.trans hs)]
        · rw [hs]
      have := one x hv rfl (by rw [h0]; exact le_max_right _ _)
      rw [h0] at this
      simpa using this
    | succ n hn ih =>
      rw [Function.iterate_succ_apply']
      have hmx : max ((c107pass c gs e)^[n] x).1 (c107least c) = ((c107pass c gs e)^[n] x).1 := max_eq_left (hl.trans ih.1)
      have := one _ (hm0.le.trans ih.1) (power_iter c gs e n x) (by rw [hmx]; exact ih.1)
      rw [hmx] at this
      refine ⟨this.1, this.2.trans ?_⟩
      rw [pow_succ' (u * (m + w) / (m ^ 2 + u * w)) n, mul_assoc]
      exact mul_le_mul_of_nonneg_left ih.2 hq0

/-- Where a load starts under both voltages, with its least voltage there too, it never gets up: from a potential of at most `r` it stays at most `r`. -/
theorem c107_stuck {c : PowLoad.Cfg K} (hb : c.block = none) {gs e u w r : K} (hg : 0 < gs) (hr : r ≤ u) (hw : u ≤ w) (he : e = u + w)
    (x : K × PowLoad.State K) (hp : gs * (u * w) = c107power c x.2) (hl : c107least c ≤ r) (hlim : c107power c x.2 ≤ 10 ^ 15 * r ^ 2) (hv : 0 ≤ x.1)
    (hx : x.1 ≤ r) (n : ℕ) : 0 ≤ ((c107pass c gs e)^[n] x).1 ∧ ((c107pass c gs e)^[n] x).1 ≤ r := by
  have hr0 : 0 < r := lt_of_lt_of_le (least_pos c) hl
  have hu0 : 0 < u := by linarith
  have hw0 : 0 < w := by linarith
  have hp0 : 0 ≤ c107power c x.2 := by rw [← hp]; positivity
  induction n with
  | zero => exact ⟨hv, hx⟩
  | succ n ih =>
    rw [Function.iterate_succ_apply']
    have hz := power_iter c gs e n x
    generalize (c107pass c gs e)^[n] x = z at ih hz ⊢
    refine ⟨pass_nonneg hb hg (by linarith) z ih.1 (by rw [hz]; exact hp0), ?_⟩
    rw [pass_eq hb z ih.1 (by rw [hz]; exact hp0), hz]
    have hy0 : 0 < max z.1 (c107least c) := lt_of_lt_of_le (least_pos c) (le_max_right _ _)
    have hyr : max z.1 (c107least c) ≤ r := max_le ih.2 hl
    have h1 : c107power c x.2 / r ^ 2 ≤ min (c107power c x.2 / (max z.1 (c107least c)) ^ 2) (10 ^ 15) := by
      refine le_min ?_ ?_
      · exact div_le_div_of_nonneg_left hp0 (by positivity) (pow_le_pow_left₀ hy0.le hyr 2)
      · rw [div_le_iff₀ (by positivity)]
        exact hlim
    have h2 : 0 ≤ c107power c x.2 / r ^ 2 := div_nonneg hp0 (by positivity)
    rw [div_le_iff₀ (by linarith)]
    have h3 : r * (gs + c107power c x.2 / r ^ 2) ≤ r * (gs + min (c107power c x.2 / (max z.1 (c107least c)) ^ 2) (10 ^ 15)) :=
      mul_le_mul_of_nonneg_left (by linarith) hr0.le
    refine le_trans ?_ h3
    rw [← hp, he]
    have h4 : r * (gs + gs * (u * w) / r ^ 2) = gs * (r ^ 2 + u * w) / r := by
      field_simp
    rw [h4, le_div_iff₀ hr0]
    have h5 : 0 ≤ gs * ((u - r) * (w - r)) := mul_nonneg hg.le (mul_nonneg (by linarith) (by linarith))
    nlinarith

/-- If the source cannot give the power at any voltage, the passes still settle in finitely many, at a voltage under the least one, where the load draws less. -/
theorem c107_unable {c : PowLoad.Cfg K} (hb : c.block = none) {gs e : K} (hg : 0 < gs) (he : 0 ≤ e) (x : K × PowLoad.State K)
    (hp : gs * e ^ 2 < 4 * c107power c x.2) (hlim : c107power c x.2 ≤ 10 ^ 15 * c107least c ^ 2) (hv : 0 ≤ x.1) (hx : x.1 ≤ e) (n : ℕ)
    (hn : e * (e ^ 2 + c107power c x.2 / gs) ≤ n * (c107least c * (c107power c x.2 / gs - e ^ 2 / 4))) :
    let v := e * c107least c ^ 2 / (c107least c ^ 2 + c107power c x.2 / gs)
    v < c107least c ∧ ∀ k, ((c107pass c gs e)^[n + 1 + k] x).1 = v := by
  intro v
  have hL := least_pos c
  have hp0 : 0 < c107power c x.2 := by nlinarith [mul_nonneg hg.le (sq_nonneg e)]
  have hc0 : 0 < c107power c x.2 / gs := div_pos hp0 hg
  have hdel : 0 < c107power c x.2 / gs - e ^ 2 / 4 := by
    rw [sub_pos, lt_div_iff₀ hg]
    linarith
  -- how much a pass takes off
  have fall : ∀ y, c107least c ≤ y → e * y ^ 2 / (y ^ 2 + c107power c x.2 / gs) < y := fun y hy => by
    have hy0 : 0 < y := by linarith
    rw [div_lt_iff₀ (by positivity)]
    have : 0 < y * ((y - e / 2) ^ 2 + (c107power c x.2 / gs - e ^ 2 / 4)) := by positivity
    nlinarith
  have fall' : ∀ y, c107least c ≤ y → y ≤ e → (e * y ^ 2 / (y ^ 2 + c107power c x.2 / gs) - y) * (e ^ 2 + c107power c x.2 / gs)
      ≤ -(c107least c * (c107power c x.2 / gs - e ^ 2 / 4)) := fun y hy hye => by
    have hy0 : 0 < y := by linarith
    have hd : 0 < y ^ 2 + c107power c x.2 / gs := by positivity
    have e1 : e * y ^ 2 / (y ^ 2 + c107power c x.2 / gs) - y = -(y * ((y - e / 2) ^ 2 + (c107power c x.2 / gs - e ^ 2 / 4)) / (y ^ 2 + c107power c x.2 / gs)) := by
      rw [eq_neg_iff_add_eq_zero, div_sub' hd.ne', ← add_div, div_eq_zero_iff]
      left
      ring
    rw [e1, neg_mul, neg_le_neg_iff]
    have h2 : c107least c * (c107power c x.2 / gs - e ^ 2 / 4) ≤ y * ((y - e / 2) ^ 2 + (c107power c x.2 / gs - e ^ 2 / 4)) := by
      refine mul_le_mul hy ?_ hdel.le hy0.le
      linarith [sq_nonneg (y - e / 2)]
    have h3 : 0 ≤ y * ((y - e / 2) ^ 2 + (c107power c x.2 / gs - e ^ 2 / 4)) := by positivity
    have h4 : y ^ 2 + c107power c x.2 / gs ≤ e ^ 2 + c107power c x.2 / gs := by
      have := pow_le_pow_left₀ hy0.le hye 2
      linarith
    rw [div_mul_eq_mul_div, le_div_iff₀ hd]
    refine mul_le_mul h2 h4 hd.le h3
  have one : ∀ z : K × PowLoad.State K, 0 ≤ z.1 → c107power c z.2 = c107power c x.2 →
      (c107pass c gs e z).1 = e * (max z.1 (c107least c)) ^ 2 / ((max z.1 (c107least c)) ^ 2 + c107power c x.2 / gs) := fun z h0 hz => by
    have hlz : c107power c z.2 ≤ 10 ^ 15 * (max z.1 (c107least c)) ^ 2 := by
      rw [hz]
      refine hlim.trans (mul_le_mul_of_nonneg_left ?_ (by positivity))
      exact pow_le_pow_left₀ hL.le (le_max_right _ _) 2
    rw [pass_free hb hg z h0 (by rw [hz]; exact hp0.le) hlz, hz]
  have vlt : v < c107least c := fall _ (le_refl _)
  have inv : ∀ k, 0 ≤ ((c107pass c gs e)^[k] x).1 ∧ ((c107pass c gs e)^[k] x).1 ≤ max e (c107least c)
      ∧ (((c107pass c gs e)^[k] x).1 < c107least c
        ∨ (((c107pass c gs e)^[k] x).1 ≤ e ∧ ((c107pass c gs e)^[k] x).1 * (e ^ 2 + c107power c x.2 / gs)
            ≤ e * (e ^ 2 + c107power c x.2 / gs) - k * (c107least c * (c107power c x.2 / gs - e ^ 2 / 4)))) := fun k => by
    induction k with
    | zero =>
      refine ⟨hv, hx.trans (le_max_left _ _), Or.inr ⟨hx, ?_⟩⟩
      have h1 : 0 ≤ e ^ 2 + c107power c x.2 / gs := by positivity
      have := mul_le_mul_of_nonneg_right hx h1
      show x.1 * _ ≤ _
      simpa using this
    | succ k ih =>
      rw [Function.iterate_succ_apply']
      have hz := power_iter c gs e k x
      generalize (c107pass c gs e)^[k] x = z at ih hz ⊢
      have h1 := one z ih.1 hz
      have h0 := pass_nonneg hb hg he z ih.1 (by rw [hz]; exact hp0.le)
      by_cases hzl : z.1 < c107least c
      · rw [max_eq_right hzl.le] at h1
        have h2 : (c107pass c gs e z).1 < c107least c := by rw [h1]; exact vlt
        exact ⟨h0, h2.le.trans (le_max_right _ _), Or.inl h2⟩
      · rcases ih.2.2 with hz' | ⟨hze, hzk⟩
        · exact absurd hz' hzl
        · have hzl' := not_lt.mp hzl
          rw [max_eq_left hzl'] at h1
          have h2 := fall z.1 hzl'
          have h3 := fall' z.1 hzl' hze
          rw [← h1] at h2 h3
          refine ⟨h0, (h2.le.trans hze).trans (le_max_left _ _), Or.inr ⟨h2.le.trans hze, ?_⟩⟩
          push_cast
          nlinarith
  have low : ∀ k, n ≤ k → ((c107pass c gs e)^[k] x).1 < c107least c := fun k hk => by
    rcases (inv k).2.2 with h | ⟨-, h⟩
    · exact h
    · have hd : 0 < e ^ 2 + c107power c x.2 / gs := by positivity
      have h1 : (n : K) * (c107least c * (c107power c x.2 / gs - e ^ 2 / 4)) ≤ k * (c107least c * (c107power c x.2 / gs - e ^ 2 / 4)) :=
        mul_le_mul_of_nonneg_right (by exact_mod_cast hk) (by positivity)
      have h2 : ((c107pass c gs e)^[k] x).1 * (e ^ 2 + c107power c x.2 / gs) ≤ 0 := by linarith
      have h3 : ((c107pass c gs e)^[k] x).1 ≤ 0 := nonpos_of_mul_nonpos_left h2 hd
      linarith
  refine ⟨vlt, fun k => ?_⟩
  have hk : n + 1 + k = (n + k) + 1 := by omega
  rw [hk, Function.iterate_succ_apply']
  have h1 := one _ (inv (n + k)).1 (power_iter c gs e (n + k) x)
  rw [h1, max_eq_right (low (n + k) (by omega)).le]

/-- A load of 16 W on 10 V behind 1 S: it can have its power at 2 V and at 8 V. From zero, with a limit of 4 V, it goes to 8 V; with no limit it stays at zero. -/
private def c107ex (l : ℚ) : PowLoad.Cfg ℚ := ⟨0, l, 0, none⟩
private def c107st : PowLoad.State ℚ := ⟨16, 0, 0, 0, 0, 0⟩

example : c107least (c107ex (400 / 99)) = 4 := by
  unfold c107least c107ex dblEps
  norm_num

example : c107power (c107ex (400 / 99)) c107st = 1 * (2 * 8) := by
  unfold c107power c107ex c107st
  norm_num

example : |((c107pass (c107ex (400 / 99)) 1 10)^[4] (0, c107st)).1 - 8| < 1 := by
  decide +kernel

example : ((c107pass (c107ex 0) 1 10)^[4] (0, c107st)).1 < 1 / 1000 := by
  decide +kernel

end Gunns.Props
