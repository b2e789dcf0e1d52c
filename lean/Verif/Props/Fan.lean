import Verif.Fluid.Fan
import Verif.Props.Laguerre
import Verif.Props.Brent
import Verif.Props.Conductivity
import Verif.Props.Euler
import Mathlib.Analysis.Real.Pi.Bounds

/-!
# C73 Fans, centrifugal pumps and pressure heads
-/

namespace Gunns.Props

open Gunns.Fans Gunns.FluidValve Finset
open Gunns.Interp (limitRange)

private theorem build_matrix (d : Duct) : d.build.matrix 0 = d.sysCond := by
  unfold Duct.build
  split_ifs with h
  · rfl
  · have := abs_nonpos_iff.mp (not_lt.mp h)
    linarith

private theorem lim_mem {a x b : ℝ} (h : a ≤ b) : a ≤ limitRange a x b ∧ limitRange a x b ≤ b := by
  unfold limitRange
  exact ⟨le_max_right _ _, max_le (min_le_right _ _) h⟩

private theorem finish_matrix (d : Duct) (f0 f1 : Fl) : ∃ g, (d.finish f0 f1).matrix 0 = limitRange 0 g conductanceLimit := by
  unfold Duct.finish
  dsimp only
  rw [build_matrix]
  exact ⟨_, rfl⟩

private theorem limit_pos : (0 : ℝ) ≤ conductanceLimit := by unfold conductanceLimit; positivity

/-- A potential link passes its conductance times the sum of the pressure drop and the source pressure; the conductance is not
negative, and what the link takes at one port it gives at the other. -/
theorem c73_potential (p : Pot) (f0 f1 : Fl) :
    ∃ A, 0 ≤ A ∧ A ≤ conductanceLimit ∧ (p.step f0 f1).duct.matrix 0 = A ∧
      (∀ p0 p1, (p.step f0 f1).flux p0 p1 = A * (p0 + p.src - p1)) ∧
      (p.step f0 f1).s0 = -(A * p.src) ∧ (p.step f0 f1).s1 = A * p.src := by
  obtain ⟨g, hg⟩ := finish_matrix { p.duct with effCond := p.duct.maxCond } f0 f1
  obtain ⟨A, hA⟩ : ∃ A, A = limitRange 0 g conductanceLimit := ⟨_, rfl⟩
  have hl := lim_mem (x := g) limit_pos
  have hm : (p.step f0 f1).duct.matrix 0 = A := by rw [hA, ← hg]; rfl
  have hs : (p.step f0 f1).s0 = -(A * p.src) := by
    have : (p.step f0 f1).s0 = -p.src * (p.step f0 f1).duct.matrix 0 := rfl
    rw [this, hm]; ring
  refine ⟨A, hA ▸ hl.1, hA ▸ hl.2, hm, ?_, hs, ?_⟩
  · intro p0 p1
    have : (p.step f0 f1).flux p0 p1 = (p0 - p1) * (p.step f0 f1).duct.matrix 0 - (p.step f0 f1).s0 := rfl
    rw [this, hm, hs]; ring
  · have : (p.step f0 f1).s1 = -(p.step f0 f1).s0 := rfl
    rw [this, hs]; ring

/-- The conductance is that of the pressure drop between the nodes and takes no account of the source pressure: between nodes of equal
pressure, a source above the least pressure for linearization makes more flow than its pressure would through the conductor. -/
theorem c73_linearization (p : Pot) (f0 f1 : Fl) (ht : p.duct.tune = .off) (hb : p.duct.block = false) (hx : p.duct.exponent = 1 / 2)
    (hg : 0 < p.duct.maxCond) (hr : 0 < f0.rho) (hr1 : f1.rho = f0.rho) (hw : dblEps < f0.mw) (hw1 : f1.mw = f0.mw) (hp : f0.p = f1.p)
    (hl : dblEps < p.duct.minLin) (hs : p.duct.minLin < p.src)
    (hlim : computeAdmittance p.duct.maxCond p.duct.minLin f0 f1 p.duct.exponent ≤ conductanceLimit) :
    p.duct.maxCond * √(f0.rho * (1000 * p.src)) < (p.step f0 f1).flux f0.p f1.p * f0.mw := by
  have he := dblEps_pos (K := ℝ)
  have hl0 : 0 < p.duct.minLin := he.trans hl
  have hw0 : 0 < f0.mw := he.trans hw
  have hs0 : 0 < p.src := hl0.trans hs
  have hA : computeAdmittance p.duct.maxCond p.duct.minLin f0 f1 p.duct.exponent =
      p.duct.maxCond * √(f0.rho * (1000 * p.duct.minLin)) / p.duct.minLin / f0.mw := by
    have hmw : useMW f0 f1 = f0.mw := by
      unfold useMW
      rw [hw1, if_neg (not_lt.mpr hw.le), if_neg (not_lt.mpr hw.le)]; ring
    have hd : max p.duct.minLin |f0.p - f1.p| = p.duct.minLin := by
      rw [hp, sub_self, abs_zero]; exact max_eq_left hl0.le
    unfold computeAdmittance
    dsimp only
    rw [hmw, hd, if_pos ⟨hl, hw⟩, hx]
    have hpow : ∀ z, power (1 / 2) z = √z := by
      intro z
      unfold power limitRange
      dsimp only
      rw [if_pos (by norm_num)]
    rw [hpow, hr1]
    unfold paPerKpa
    congr 5; ring
  have hm : (p.step f0 f1).duct.matrix 0 = computeAdmittance p.duct.maxCond p.duct.minLin f0 f1 p.duct.exponent := by
    have h0 : (p.step f0 f1).duct.matrix 0 = (Duct.finish { p.duct with effCond := p.duct.maxCond } f0 f1).matrix 0 := rfl
    rw [h0]
    unfold Duct.finish
    dsimp only
    rw [build_matrix]
    have ht' : Duct.tuning { p.duct with effCond := p.duct.maxCond } f0 f1 = { p.duct with effCond := p.duct.maxCond, tune := .off } := by
      unfold Duct.tuning
      dsimp only
      rw [ht]
    rw [ht']
    dsimp only
    rw [hb]
    show limitRange 0 (computeAdmittance p.duct.maxCond p.duct.minLin f0 f1 p.duct.exponent) conductanceLimit = _
    unfold limitRange
    rw [min_eq_left hlim, max_eq_left]
    rw [hA]; positivity
  have hf : (p.step f0 f1).flux f0.p f1.p = p.src * computeAdmittance p.duct.maxCond p.duct.minLin f0 f1 p.duct.exponent := by
    have h1 : (p.step f0 f1).flux f0.p f1.p = (f0.p - f1.p) * (p.step f0 f1).duct.matrix 0 - -p.src * (p.step f0 f1).duct.matrix 0 := rfl
    rw [h1, hm, hp]; ring
  rw [hf, hA]
  have e : p.src * (p.duct.maxCond * √(f0.rho * (1000 * p.duct.minLin)) / p.duct.minLin / f0.mw) * f0.mw =
      p.duct.maxCond * (p.src * √(f0.rho * (1000 * p.duct.minLin)) / p.duct.minLin) := by field_simp
  rw [e]
  apply mul_lt_mul_of_pos_left _ hg
  have h2 : 0 < p.src * √(f0.rho * (1000 * p.duct.minLin)) / p.duct.minLin := by positivity
  rw [Real.sqrt_lt' h2, div_pow, mul_pow, Real.sq_sqrt (by positivity), lt_div_iff₀ (by positivity)]
  nlinarith [mul_pos (mul_pos hr hs0) hl0, mul_lt_mul_of_pos_left hs (mul_pos (mul_pos hr hs0) hl0)]

private theorem curve_sum (c : ℕ → ℝ) (q : ℝ) : curve c q = ∑ j ∈ range 6, c j * q ^ j := by
  unfold curve; simp [sum_range_succ]

/-- The affinity laws: at speed N and density ρ the fan's curve is the reference curve with the flow scaled by N/N₀ and the pressure by
ρ/ρ₀ (N/N₀)². -/
theorem c73_affinity (n : Fan) {density : ℝ} (hs : fltEps < n.impellerSpeed) (hd : fltEps < density) (hr : 0 < n.refSpeed) (q : ℝ) :
    curve (n.computeSource density).affinity q =
      density / n.refDensity * (n.impellerSpeed / n.refSpeed) ^ 2 * curve n.coeffs (q / (n.impellerSpeed / n.refSpeed)) := by
  have he : (0 : ℝ) < fltEps := by unfold fltEps; positivity
  have hf : 0 < n.impellerSpeed / n.refSpeed := div_pos (he.trans hs) hr
  have ha : (n.computeSource density).affinity = fun k : ℕ => n.coeffs k * (density / n.refDensity) *
      (n.impellerSpeed / n.refSpeed) ^ (2 - (k : ℝ)) := by
    unfold Fan.computeSource
    rw [if_pos ⟨hs, hd⟩]
  rw [ha, curve_sum, curve_sum, mul_sum]
  obtain ⟨f, hf'⟩ : ∃ f, f = n.impellerSpeed / n.refSpeed := ⟨_, rfl⟩
  rw [← hf'] at hf ⊢
  apply sum_congr rfl
  intro k _
  rw [Real.rpow_sub hf, Real.rpow_natCast, div_pow]
  norm_num
  ring

/-- The source pressure of a fan is never negative, and zero at rest and in vacuum. -/
theorem c73_source (n : Fan) (density : ℝ) :
    0 ≤ (n.computeSource density).pot.src ∧
    (n.impellerSpeed ≤ fltEps ∨ density ≤ fltEps → (n.computeSource density).pot.src = 0) := by
  unfold Fan.computeSource
  constructor
  · split_ifs with h
    · exact le_max_left _ _
    · exact le_refl _
  · intro h
    rw [if_neg]
    rintro ⟨h1, h2⟩
    rcases h with h | h
    · exact absurd h1 (not_lt.mpr h)
    · exact absurd h2 (not_lt.mpr h)

/-- A root that the curve finds is in range, and a root to within the rounding of the curve's evaluation (with an imaginary part below
DBL_EPSILON) or within FLT_EPSILON of an exact root. -/
theorem c73_root {c : ℕ → ℝ} {root maxQ q : ℝ} (hm : 0 ≤ maxQ) (h : improveRoot c root maxQ = some q) :
    0 ≤ q ∧ q ≤ maxQ + fltEps ∧
    ((∃ z : ℂ, z.re = q ∧ |z.im| < dblEps ∧
        ‖∑ j ∈ range 6, (c j : ℂ) * z ^ j‖ ≤ dblEps * ∑ j ∈ range 6, ((j : ℝ) + 1) * |c j| * ‖z‖ ^ j) ∨
      ∃ r, 0 ≤ r ∧ r ≤ maxQ + fltEps ∧ ∑ j ∈ range 6, c j * r ^ j = 0 ∧ |q - r| ≤ fltEps + 4 * dblEps * |q|) := by
  have he : (0 : ℝ) < fltEps := by unfold fltEps; positivity
  unfold improveRoot at h
  cases hL : Laguerre.solve (fun k => (c k : ℂ)) 5 (root : ℂ) with
  | none => rw [hL] at h; cases h
  | some p =>
    obtain ⟨i, r⟩ := p
    rw [hL] at h
    dsimp only at h
    by_cases hr : (0 ≤ r.re ∧ r.re ≤ maxQ) ∧ |r.im| < dblEps
    · rw [if_pos hr] at h
      cases h
      obtain ⟨_, _, h3⟩ := c72_returned (by norm_num) hL
      refine ⟨hr.1.1, by linarith [hr.1.2], Or.inl ⟨r, rfl, hr.2, ?_⟩⟩
      simpa using h3
    · rw [if_neg hr] at h
      cases hB : Brent.solve (curve c) 0 (maxQ + fltEps) fltEps with
      | found x k =>
        rw [hB] at h
        cases h
        have hle : (0 : ℝ) ≤ maxQ + fltEps := by linarith
        obtain ⟨hb, _⟩ := c38_bracket he.le hB
        rw [min_eq_left hle, max_eq_right hle] at hb
        have hcont : ContinuousOn (curve c) (Set.uIcc 0 (maxQ + fltEps)) := by
          have : curve c = fun q => ∑ j ∈ range 6, c j * q ^ j := funext (curve_sum c)
          rw [this]
          fun_prop
        obtain ⟨r', hr', h0, hd⟩ := c38_root he.le hcont hB
        rw [Set.uIcc_of_le hle] at hr'
        exact ⟨hb.1, hb.2, Or.inr ⟨r', hr'.1, hr'.2, by rw [← curve_sum]; exact h0, hd⟩⟩
      | notBracketed => rw [hB] at h; cases h
      | noConvergence => rw [hB] at h; cases h
      | divZero => rw [hB] at h; cases h

/-- The source pressure is on the fan's curve, at a flow where the root was sought of the fan's curve less the system's, p = (q/G)²,
with the system constant G filtered from the last flow and source pressure. -/
theorem c73_crossing (n : Fan) {density : ℝ} (hs : fltEps < n.impellerSpeed) (hd : fltEps < density) :
    let m := n.computeSource density
    m.pot.src = max 0 (curve m.affinity m.sourceQ) ∧
    m.sysConst = n.filterGain * (max (n.refQ * (n.impellerSpeed / n.refSpeed) / 10000) n.volFlow /
      √(limitRange dblEps n.pot.src (m.affinity 0))) + (1 - n.filterGain) * n.sysConst ∧
    (dblEps < m.sysConst → ∃ c : ℕ → ℝ, (∀ q, curve c q = curve m.affinity q - (q / m.sysConst) ^ 2) ∧
      (improveRoot c n.sourceQ (n.refQ * (n.impellerSpeed / n.refSpeed)) = some m.sourceQ ∨
        improveRoot c n.sourceQ (n.refQ * (n.impellerSpeed / n.refSpeed)) = none ∧ m.sourceQ = n.sourceQ)) := by
  intro m
  have hm : m = n.computeSource density := rfl
  unfold Fan.computeSource at hm
  rw [if_pos ⟨hs, hd⟩] at hm
  dsimp only at hm
  rw [hm]
  dsimp only
  refine ⟨rfl, by rw [mul_one_div], ?_⟩
  intro hG
  generalize n.filterGain * (_ / _) + _ = G at hG ⊢
  rw [if_pos hG]
  obtain ⟨a, ha⟩ : ∃ a, a = (fun k : ℕ => n.coeffs k * (density / n.refDensity) * (n.impellerSpeed / n.refSpeed) ^ (2 - (k : ℝ))) :=
    ⟨_, rfl⟩
  have e : (fun k : ℕ => if k = 2 then n.coeffs 2 * (density / n.refDensity) * (n.impellerSpeed / n.refSpeed) ^ (2 - ((2 : ℕ) : ℝ)) - 1 / G / G
      else n.coeffs k * (density / n.refDensity) * (n.impellerSpeed / n.refSpeed) ^ (2 - (k : ℝ))) =
      fun k => if k = 2 then a 2 - 1 / G / G else a k := by rw [ha]
  rw [← ha, e]
  refine ⟨fun k => if k = 2 then a 2 - 1 / G / G else a k, ?_, ?_⟩
  · intro q
    rw [curve_sum, curve_sum]
    simp only [sum_range_succ, range_zero, sum_empty]
    norm_num
    ring
  · cases h : improveRoot (fun k => if k = 2 then a 2 - 1 / G / G else a k) n.sourceQ (n.refQ * (n.impellerSpeed / n.refSpeed)) with
    | some q => exact Or.inl rfl
    | none => exact Or.inr ⟨rfl, rfl⟩

private theorem initCurve_eq {c : Config} (h0 : 0 < c.qBep) (h1 : 0 < c.bestEfficiency) (h2 : c.bestEfficiency ≤ 1)
    (hz : ∀ k, 1 ≤ k → k ≤ 5 → c.coeffs k = 0) :
    ∃ f, 0 ≤ f ∧ f ≤ 1 ∧ ∃ w, 1 / 5 ≤ w ∧ w ≤ 5 ∧
      initCurve c = some (fun k => blend f refRadial refAxial k * (c.coeffs 0 / c.qBep ^ k), w,
        1000 * c.coeffs 0 * c.qBep / c.bestEfficiency, blend f powerRadial powerAxial) := by
  have hs := lim_mem (a := 1 / 5) (b := 5)
    (x := c.refSpeed / secPerMinPer2Pi * √c.qBep * (1 / 1000 * c.refDensity / c.coeffs 0) ^ (3 / 4 : ℝ)) (by norm_num)
  have hd : c.coeffs 1 = 0 ∧ c.coeffs 2 = 0 ∧ c.coeffs 3 = 0 ∧ c.coeffs 4 = 0 ∧ c.coeffs 5 = 0 :=
    ⟨hz 1 (by norm_num) (by norm_num), hz 2 (by norm_num) (by norm_num), hz 3 (by norm_num) (by norm_num),
      hz 4 (by norm_num) (by norm_num), hz 5 (by norm_num) (by norm_num)⟩
  refine ⟨(specificSpeed c (c.coeffs 0) - 1 / 5) / (5 - 1 / 5), ?_, ?_, specificSpeed c (c.coeffs 0), hs.1, hs.2, ?_⟩
  · apply div_nonneg _ (by norm_num)
    have : 1 / 5 ≤ specificSpeed c (c.coeffs 0) := hs.1
    linarith
  · rw [div_le_one (by norm_num)]
    have : specificSpeed c (c.coeffs 0) ≤ 5 := hs.2
    linarith
  · unfold initCurve
    rw [if_pos ⟨h0, h1⟩, if_neg (not_lt.mpr h2)]
    dsimp only
    rw [if_pos hd, if_pos hd]

/-- The curve made for a fan that has only a pressure and a flow at its best efficiency: in terms of x = q/q₀ it is positive up to the
best efficiency point, negative from 1.48 on, and at the best efficiency point between 0.989 and 1 times the pressure given.  The
power there is the one of that pressure, flow and efficiency, and positive at all flows up to 1.48. -/
theorem c73_default {c : Config} (h0 : 0 < c.qBep) (h1 : 0 < c.bestEfficiency) (h2 : c.bestEfficiency ≤ 1)
    (hz : ∀ k, 1 ≤ k → k ≤ 5 → c.coeffs k = 0) (hp : 0 < c.coeffs 0) :
    ∃ a w pw b, initCurve c = some (a, w, pw, b) ∧ 1 / 5 ≤ w ∧ w ≤ 5 ∧
      (∀ x, 0 ≤ x → x ≤ 1 → 0 < curve a (x * c.qBep)) ∧ (∀ x, 148 / 100 ≤ x → curve a (x * c.qBep) < 0) ∧
      989 / 1000 * c.coeffs 0 ≤ curve a c.qBep ∧ curve a c.qBep ≤ c.coeffs 0 ∧
      pw * c.bestEfficiency = 1000 * c.coeffs 0 * c.qBep ∧ b 0 + b 1 + b 2 + b 3 = 1 ∧
      ∀ x, 0 ≤ x → x ≤ 148 / 100 → 0 < b 0 + b 1 * x + b 2 * x * x + b 3 * x * x * x := by
  obtain ⟨f, hf0, hf1, w, hw0, hw1, e⟩ := initCurve_eq h0 h1 h2 hz
  refine ⟨_, _, _, _, e, hw0, hw1, ?_⟩
  have hcv : ∀ x, curve (fun k => blend f refRadial refAxial k * (c.coeffs 0 / c.qBep ^ k)) (x * c.qBep) =
      c.coeffs 0 * ((1 - f) * (109 / 100 + 33 / 100 * x - 59 / 100 * x ^ 2 - 39 / 100 * x ^ 3 + 132 / 100 * x ^ 4 - 76 / 100 * x ^ 5) +
        f * (169 / 100 - 545 / 100 * x + 962 / 100 * x ^ 2 - 488 / 100 * x ^ 3 + 22 / 1000 * x ^ 4 - 13 / 1000 * x ^ 5)) := by
    intro x
    have hk : ∀ k : ℕ, blend f refRadial refAxial k * (c.coeffs 0 / c.qBep ^ k) * (x * c.qBep) ^ k =
        c.coeffs 0 * (blend f refRadial refAxial k * x ^ k) := by
      intro k
      have : c.qBep ^ k ≠ 0 := pow_ne_zero _ h0.ne'
      rw [mul_pow]; field_simp
    rw [curve_sum, sum_congr rfl (fun k _ => hk k), ← mul_sum]
    simp only [sum_range_succ, range_zero, sum_empty, blend, refRadial, refAxial]
    ring
  have hmix : ∀ {u v : ℝ}, 0 < u → 0 < v → 0 < (1 - f) * u + f * v := by
    intro u v hu hv
    rcases eq_or_lt_of_le hf0 with h | h
    · rw [← h]; linarith
    · have a1 := mul_nonneg (sub_nonneg.mpr hf1) hu.le
      have a2 := mul_pos h hv
      linarith
  refine ⟨?_, ?_, ?_, ?_, ?_, ?_, ?_⟩
  · intro x hx0 hx1
    rw [hcv]
    apply mul_pos hp
    have x2 : x ^ 2 ≤ 1 := pow_le_one₀ hx0 hx1
    have x3 : x ^ 3 ≤ 1 := pow_le_one₀ hx0 hx1
    have x32 : x ^ 3 ≤ x ^ 2 := pow_le_pow_of_le_one hx0 hx1 (by norm_num)
    have x54 : x ^ 5 ≤ x ^ 4 := pow_le_pow_of_le_one hx0 hx1 (by norm_num)
    have x4 : 0 ≤ x ^ 4 := by positivity
    apply hmix
    · linarith
    · nlinarith [sq_nonneg (x - 57 / 100)]
  · intro x hx
    rw [hcv]
    obtain ⟨t, ht⟩ : ∃ t, t = x - 148 / 100 := ⟨_, rfl⟩
    have ht0 : 0 ≤ t := by linarith
    have hxt : x = t + 148 / 100 := by linarith
    have t2 : 0 ≤ t ^ 2 := by positivity
    have t3 : 0 ≤ t ^ 3 := by positivity
    have t4 : 0 ≤ t ^ 4 := by positivity
    have t5 : 0 ≤ t ^ 5 := by positivity
    have := mul_pos hp (hmix (u := -(109 / 100 + 33 / 100 * x - 59 / 100 * x ^ 2 - 39 / 100 * x ^ 3 + 132 / 100 * x ^ 4 - 76 / 100 * x ^ 5))
      (v := -(169 / 100 - 545 / 100 * x + 962 / 100 * x ^ 2 - 488 / 100 * x ^ 3 + 22 / 1000 * x ^ 4 - 13 / 1000 * x ^ 5))
      (by rw [hxt]; ring_nf; linarith) (by rw [hxt]; ring_nf; linarith))
    linarith
  · have := hcv 1
    rw [one_mul] at this
    rw [this]
    nlinarith
  · have := hcv 1
    rw [one_mul] at this
    rw [this]
    nlinarith
  · field_simp
  · simp only [blend, powerRadial, powerAxial]; ring
  · intro x hx0 hx1
    have e : blend f powerRadial powerAxial 0 + blend f powerRadial powerAxial 1 * x + blend f powerRadial powerAxial 2 * x * x +
        blend f powerRadial powerAxial 3 * x * x * x = (1 - f) * (42 / 100 + 69 / 100 * x - 11 / 100 * x ^ 2) +
          f * (2 - 598 / 100 * x + 878 / 100 * x ^ 2 - 38 / 10 * x ^ 3) := by
      simp only [blend, powerRadial, powerAxial]; ring
    rw [e]
    apply hmix
    · nlinarith
    · rcases le_total x 1 with h | h
      · have x32 : x ^ 3 ≤ x ^ 2 := pow_le_pow_of_le_one hx0 h (by norm_num)
        nlinarith [sq_nonneg (x - 3 / 5)]
      · obtain ⟨t, ht⟩ : ∃ t, t = 148 / 100 - x := ⟨_, rfl⟩
        have ht0 : 0 ≤ t := by linarith
        have ht1 : t ≤ 48 / 100 := by linarith
        have hxt : x = 148 / 100 - t := by linarith
        have t3 : 0 ≤ t ^ 3 := by positivity
        have t2 : t ^ 2 ≤ 48 / 100 * t := by nlinarith
        rw [hxt]; ring_nf; linarith

/-- At the best efficiency point, at any speed and density, the power is that of the affinity laws; torque times angular speed is the
power, and the torque brakes. -/
theorem c73_power (n : Fan) (density : ℝ) :
    let m := n.updatePower density
    (0 < n.specificSpeed → fltEps < n.impellerSpeed → 0 < n.refSpeed → dblEps ≤ n.qBep * (n.impellerSpeed / n.refSpeed) →
      n.volFlow = n.qBep * (n.impellerSpeed / n.refSpeed) → n.qBep ≤ n.refQ →
      n.powerCoeffs 0 + n.powerCoeffs 1 + n.powerCoeffs 2 + n.powerCoeffs 3 = 1 →
      m.power = density / n.refDensity * (n.impellerSpeed / n.refSpeed) ^ 3 * n.powerBep) ∧
    (n.specificSpeed ≤ 0 ∨ n.impellerSpeed ≤ fltEps → m.power = |n.volFlow| * (1000 * n.pot.src)) ∧
    (fltEps < n.motorSpeed → dblEps < n.driveRatio → m.torque * (n.motorSpeed * (2 * Real.pi) / 60) = -m.power) ∧
    (n.motorSpeed ≤ fltEps → m.torque = 0) := by
  intro m
  have he : (0 : ℝ) < fltEps := by unfold fltEps; positivity
  refine ⟨?_, ?_, ?_, ?_⟩
  · intro h1 h2 h3 h4 h5 h6 h7
    have hr : 0 < n.impellerSpeed / n.refSpeed := div_pos (he.trans h2) h3
    obtain ⟨r, hr'⟩ : ∃ r, r = n.impellerSpeed / n.refSpeed := ⟨_, rfl⟩
    have hq : limitRange 0 n.volFlow (n.refQ * r) / max (n.qBep * r) dblEps = 1 := by
      rw [← hr'] at hr h4 h5
      have hpos : 0 < n.qBep * r := lt_of_lt_of_le dblEps_pos h4
      rw [max_eq_left h4, h5]
      unfold limitRange
      rw [min_eq_left (mul_le_mul_of_nonneg_right h6 hr.le), max_eq_left hpos.le, div_self hpos.ne']
    show (n.updatePower density).power = _
    unfold Fan.updatePower
    dsimp only
    rw [if_pos ⟨h1, h2⟩, ← hr', hq]
    have e : n.powerCoeffs 0 + n.powerCoeffs 1 * 1 + n.powerCoeffs 2 * 1 * 1 + n.powerCoeffs 3 * 1 * 1 * 1 = 1 := by linarith
    rw [e]; ring
  · intro h
    show (n.updatePower density).power = _
    unfold Fan.updatePower
    dsimp only
    rw [if_neg]
    · ring
    · rintro ⟨h1, h2⟩
      rcases h with h | h
      · exact absurd h1 (not_lt.mpr h)
      · exact absurd h2 (not_lt.mpr h)
  · intro h1 h2
    have ht : m.torque = if n.motorSpeed > fltEps ∧ n.driveRatio > dblEps then -m.power * secPerMinPer2Pi / n.motorSpeed else 0 := rfl
    rw [ht, if_pos ⟨h1, h2⟩]
    have h3 : n.motorSpeed ≠ 0 := (he.trans h1).ne'
    have h4 := Real.pi_ne_zero
    unfold secPerMinPer2Pi
    field_simp
  · intro h
    have ht : m.torque = if n.motorSpeed > fltEps ∧ n.driveRatio > dblEps then -m.power * secPerMinPer2Pi / n.motorSpeed else 0 := rfl
    rw [ht, if_neg]
    rintro ⟨h1, _⟩
    exact absurd h1 (not_lt.mpr h)

private noncomputable def sampleDuct : Duct :=
  { maxCond := 1, effCond := 1, sysCond := 0, exponent := 1 / 2, tune := .off, tuneMass := 0, tuneVol := 0, minLin := 1, block := false,
    blockage := 0, matrix := fun _ => 0, update := false, position := 1, leak := false, leakRate := 0, prevLeak := 0, leakCond := 0 }

private noncomputable def sampleFan : Fan :=
  { refSpeed := 60, refDensity := 1, coeffs := fun k => if k = 0 then 4 / 3000 else if k = 2 then -1 / 3000 else 0, qBep := 1,
    filterGain := 0, driveRatio := 1, checkActive := true, specificSpeed := 5, powerBep := 1, powerCoeffs := powerAxial, refQ := 2,
    sysConst := 1, motorSpeed := 60, impellerSpeed := 60, affinity := fun _ => 0, sourceQ := 0, position := 1, power := 0, torque := 0,
    volFlow := 2, pot := { duct := sampleDuct, src := 0, s0 := 0, s1 := 0 } }

/-- The power polynomial is used up to the end of the fan's curve, where it can be negative: a fan with its own curve that ends at twice
the best efficiency flow drives its shaft. -/
theorem c73_power_negative : ∃ c : Config, ∃ n : Fan, ∃ w pw b, initCurve c = some (c.coeffs, w, pw, b) ∧ n.coeffs = c.coeffs ∧
    n.specificSpeed = w ∧ n.powerBep = pw ∧ n.powerCoeffs = b ∧ n.qBep = c.qBep ∧ n.refSpeed = c.refSpeed ∧ n.refDensity = c.refDensity ∧
    c.qBep < n.refQ ∧ curve c.coeffs n.refQ = 0 ∧ n.motorSpeed = c.refSpeed ∧ n.impellerSpeed = c.refSpeed ∧ n.volFlow = n.refQ ∧
    (n.updatePower c.refDensity).power < 0 ∧ 0 < (n.updatePower c.refDensity).torque := by
  have he : (fltEps : ℝ) < 60 := by unfold fltEps; norm_num
  have hd : (dblEps : ℝ) < 1 := dblEps_lt_one
  have hcv : ∀ q, curve sampleFan.coeffs q = 4 / 3000 - q ^ 2 / 3000 := by
    intro q
    rw [curve_sum]
    simp only [sum_range_succ, range_zero, sum_empty, sampleFan]
    norm_num
    ring
  have hpw : (sampleFan.updatePower 1).power = -524 / 100 := by
    unfold Fan.updatePower
    dsimp only
    rw [if_pos ⟨by norm_num [sampleFan], by simpa [sampleFan] using he⟩]
    have h1 : sampleFan.impellerSpeed / sampleFan.refSpeed = 1 := by norm_num [sampleFan]
    have h2 : limitRange 0 sampleFan.volFlow (sampleFan.refQ * 1) / max (sampleFan.qBep * 1) dblEps = 2 := by
      have : max (sampleFan.qBep * 1) dblEps = 1 := by
        rw [show sampleFan.qBep * 1 = 1 by norm_num [sampleFan]]; exact max_eq_left hd.le
      rw [this]
      norm_num [limitRange, sampleFan]
    rw [h1, h2]
    norm_num [sampleFan, powerAxial]
  refine ⟨{ refSpeed := 60, refDensity := 1, coeffs := sampleFan.coeffs, qBep := 1, bestEfficiency := 1 }, sampleFan, 5, 1, powerAxial, ?_,
    rfl, rfl, rfl, rfl, rfl, rfl, rfl, by norm_num [sampleFan], ?_, rfl, rfl, rfl, ?_, ?_⟩
  · unfold initCurve
    rw [if_pos ⟨by norm_num, by norm_num⟩, if_neg (by norm_num)]
    dsimp only
    have hn : ¬ (sampleFan.coeffs 1 = 0 ∧ sampleFan.coeffs 2 = 0 ∧ sampleFan.coeffs 3 = 0 ∧ sampleFan.coeffs 4 = 0 ∧ sampleFan.coeffs 5 = 0) := by
      rintro ⟨_, h, _⟩
      norm_num [sampleFan] at h
    rw [if_neg hn, if_neg hn, hcv]
    have hsp : specificSpeed { refSpeed := 60, refDensity := 1, coeffs := sampleFan.coeffs, qBep := 1, bestEfficiency := 1 } (4 / 3000 - 1 ^ 2 / 3000) = 5 := by
      unfold specificSpeed
      dsimp only
      have h3 : (1 / 1000 * 1 / (4 / 3000 - 1 ^ 2 / 3000) : ℝ) = 1 := by norm_num
      have h4 : (60 : ℝ) / secPerMinPer2Pi = 2 * Real.pi := by
        unfold secPerMinPer2Pi
        have := Real.pi_ne_zero
        field_simp
      rw [h3, Real.one_rpow, Real.sqrt_one, mul_one, mul_one, h4]
      unfold limitRange
      have := Real.pi_gt_three
      rw [min_eq_right (by linarith), max_eq_left (by norm_num)]
    rw [hsp]
    have hb : blend ((5 - 1 / 5) / (5 - 1 / 5)) powerRadial powerAxial = powerAxial := by
      funext k
      unfold blend
      norm_num
    rw [hb]
    norm_num
  · rw [hcv]; norm_num [sampleFan]
  · show (sampleFan.updatePower 1).power < 0
    rw [hpw]; norm_num
  · have ht : (sampleFan.updatePower 1).torque = if sampleFan.motorSpeed > fltEps ∧ sampleFan.driveRatio > dblEps then
        -(sampleFan.updatePower 1).power * secPerMinPer2Pi / sampleFan.motorSpeed else 0 := rfl
    show 0 < (sampleFan.updatePower 1).torque
    rw [ht, if_pos ⟨by simpa [sampleFan] using he, by simpa [sampleFan] using hd⟩, hpw]
    have h5 : 0 < secPerMinPer2Pi := by
      unfold secPerMinPer2Pi
      have := Real.pi_pos
      positivity
    have h6 : sampleFan.motorSpeed = 60 := rfl
    rw [h6]
    apply div_pos _ (by norm_num)
    apply mul_pos _ h5
    norm_num

private theorem finish_zero (d : Duct) (f0 f1 : Fl) (ht : d.tune = .off) (he : d.effCond = 0) : (d.finish f0 f1).matrix 0 = 0 := by
  have ht' : d.tuning f0 f1 = { d with tune := .off } := by
    unfold Duct.tuning
    rw [ht]
  unfold Duct.finish
  dsimp only
  rw [build_matrix, ht']
  have h0 : ∀ m x, computeAdmittance 0 m f0 f1 x = 0 := by
    intro m x
    unfold computeAdmittance
    dsimp only
    split_ifs <;> simp
  have h1 : limitRange (0 : ℝ) 0 conductanceLimit = 0 := by
    unfold limitRange
    rw [min_eq_left limit_pos, max_self]
  cases hb : d.block
  · simp [he, h0, h1]
  · simp [he, h0, h1]

/-- The check valve of a fan: it is fully open or closed, closed exactly if it is active and the source does not overcome the pressures,
and then nothing flows, whatever the solution. -/
theorem c73_check (n : Fan) (f0 f1 : Fl) (port : Bool) (ht : n.pot.duct.tune = .off) :
    let m := n.step f0 f1 port
    ((m.position = 0 ∧ n.checkActive = true ∧ m.pot.src + f0.p ≤ f1.p) ∨
      (m.position = 1 ∧ (n.checkActive = false ∨ f1.p < m.pot.src + f0.p))) ∧
    (m.position = 0 → ∀ p0 p1, m.pot.flux p0 p1 = 0) := by
  intro m
  obtain ⟨a, ha⟩ : ∃ a, a = Fan.computeSource (if n.driveRatio > dblEps then { n with impellerSpeed := n.motorSpeed / n.driveRatio } else n)
      (if port then f1.rho else f0.rho) := ⟨_, rfl⟩
  have hact : a.checkActive = n.checkActive ∧ a.pot.duct = n.pot.duct := by
    rw [ha]
    unfold Fan.computeSource
    split_ifs <;> exact ⟨rfl, rfl⟩
  have hpos : m.position = if a.pot.src + f0.p - f1.p > 0 ∨ a.checkActive = false then 1 else 0 := by rw [ha]; rfl
  have hsrc : m.pot.src = a.pot.src := by rw [ha]; rfl
  have hduct : m.pot.duct = Duct.finish { a.pot.duct with effCond := a.pot.duct.maxCond * m.position } f0 f1 := by rw [hpos, ha]; rfl
  have hs0 : m.pot.s0 = -m.pot.src * m.pot.duct.matrix 0 := rfl
  constructor
  · rw [hpos, hsrc]
    by_cases h : a.pot.src + f0.p - f1.p > 0 ∨ a.checkActive = false
    · rw [if_pos h]
      right
      refine ⟨rfl, ?_⟩
      rcases h with h | h
      · right; linarith
      · left; rw [← hact.1]; exact h
    · rw [if_neg h]
      push Not at h
      left
      refine ⟨rfl, ?_, by linarith [h.1]⟩
      rw [← hact.1]
      simpa using h.2
  · intro h p0 p1
    have hz : m.pot.duct.matrix 0 = 0 := by
      rw [hduct, h]
      apply finish_zero
      · show a.pot.duct.tune = .off
        rw [hact.2]; exact ht
      · show a.pot.duct.maxCond * 0 = 0
        ring
    unfold Pot.flux
    rw [hs0, hz]; ring

/-! ### Cavitation -/

private theorem cav_fraction (c : Cav) (source dt vapor pressure noise : ℝ) :
    ∃ full dur, (c.step source dt vapor pressure noise).1.fraction =
      limitRange 0 (if full = true then c.fraction + 2 * √(max c.fraction (1 / 100)) * dt / max dur dblEps
        else c.fraction - 2 * √(1 - min c.fraction (99 / 100)) * dt / max dur dblEps) 1 ∧
      (full = (c.malfFull || (c.enableAuto && decide (pressure < vapor)))) ∧
      (dur = if c.malfFull then c.fullDuration else if (c.enableAuto && decide (pressure < vapor)) then c.autoDuration
        else if c.malfPartial then c.partialDuration else c.duration) :=
  ⟨_, _, rfl, rfl, rfl⟩

/-- The cavitated fraction is always from 0 to 1; without noise the source is scaled by the rest of it, so it never grows or turns;
with noise it is not negative. -/
theorem c73_cavitation (c : Cav) (source dt vapor pressure noise : ℝ) :
    let r := c.step source dt vapor pressure noise
    0 ≤ r.1.fraction ∧ r.1.fraction ≤ 1 ∧
    (r.2 = source * (1 - r.1.fraction) ∨ 0 ≤ r.2) ∧
    (c.malfFull = false → c.malfPartial = false → vapor ≤ pressure → r.2 = source * (1 - r.1.fraction)) ∧
    (c.malfFull = false → c.malfPartial = false → vapor ≤ pressure → c.fraction = 0 → 0 ≤ dt → r.1.fraction = 0 ∧ r.2 = source) := by
  intro r
  obtain ⟨full, dur, h, hf, hd⟩ := cav_fraction c source dt vapor pressure noise
  have hl : 0 ≤ r.1.fraction ∧ r.1.fraction ≤ 1 := by
    show 0 ≤ (c.step source dt vapor pressure noise).1.fraction ∧ (c.step source dt vapor pressure noise).1.fraction ≤ 1
    rw [h]
    exact lim_mem (by norm_num)
  have hno : c.malfFull = false → c.malfPartial = false → vapor ≤ pressure → r.2 = source * (1 - r.1.fraction) := by
    intro h1 h2 h3
    have hdec : decide (pressure < vapor) = false := decide_eq_false (not_lt.mpr h3)
    show (c.step source dt vapor pressure noise).2 = source * (1 - (c.step source dt vapor pressure noise).1.fraction)
    unfold Cav.step
    simp [h1, h2, hdec]
  refine ⟨hl.1, hl.2, ?_, hno, ?_⟩
  · obtain ⟨k, hk⟩ : ∃ k, r.2 = if k > 0 then max 0 (source * (1 - r.1.fraction) + k * noise) else source * (1 - r.1.fraction) := ⟨_, rfl⟩
    rw [hk]
    by_cases hk0 : k > 0
    · rw [if_pos hk0]; right; exact le_max_left _ _
    · rw [if_neg hk0]; left; rfl
  · intro h1 h2 h3 h4 h5
    have hz : r.1.fraction = 0 := by
      have hdec : decide (pressure < vapor) = false := decide_eq_false (not_lt.mpr h3)
      have hff : full = false := by rw [hf, h1, hdec]; simp
      show (c.step source dt vapor pressure noise).1.fraction = 0
      rw [h, hff, h4]
      have h6 : 0 ≤ 2 * √(1 - min (0 : ℝ) (99 / 100)) * dt / max dur dblEps := by
        have := dblEps_pos (K := ℝ)
        have h7 : 0 < max dur dblEps := lt_of_lt_of_le this (le_max_right _ _)
        positivity
      unfold limitRange
      simp only [Bool.false_eq_true, if_false]
      rw [max_eq_right]
      exact (min_le_left _ _).trans (by linarith)
    exact ⟨hz, by rw [hno h1 h2 h3, hz]; ring⟩

/-- The cavitation through a history of steps, each with its time step, source, vapor pressure, inlet pressure and noise. -/
noncomputable def c73Run (c : Cav) : List (ℝ × ℝ × ℝ × ℝ × ℝ) → Cav
  | [] => c
  | (dt, source, vapor, pressure, noise) :: l => c73Run (c.step source dt vapor pressure noise).1 l

/-- Under the malfunction for full cavitation of duration T, whatever the sources, pressures and noises, the fraction grows at least
as t/(5 T), so that after 5 T it is 1; and it does not reach x before the time (√x - 1/10) T: not 1 before 0.9 T. -/
theorem c73_cavitates (c : Cav) (hm : c.malfFull = true) (hT : dblEps ≤ c.fullDuration) (h0 : 0 ≤ c.fraction) (h1 : c.fraction ≤ 1)
    (l : List (ℝ × ℝ × ℝ × ℝ × ℝ)) (hl : ∀ s ∈ l, 0 ≤ s.1) :
    let t := (l.map (fun s => s.1)).sum
    min 1 (c.fraction + t / (5 * c.fullDuration)) ≤ (c73Run c l).fraction ∧ (c73Run c l).fraction ≤ 1 ∧
    √(c73Run c l).fraction ≤ √(max c.fraction (1 / 100)) + t / c.fullDuration := by
  have he := dblEps_pos (K := ℝ)
  induction l generalizing c with
  | nil =>
    simp only [c73Run, List.map_nil, List.sum_nil, zero_div, add_zero]
    exact ⟨min_le_right _ _, h1, Real.sqrt_le_sqrt (le_max_left _ _)⟩
  | cons s l ih =>
    obtain ⟨dt, source, vapor, pressure, noise⟩ := s
    have hdt : 0 ≤ dt := hl _ (List.mem_cons_self)
    obtain ⟨d, hd⟩ : ∃ d, d = (c.step source dt vapor pressure noise).1 := ⟨_, rfl⟩
    obtain ⟨full, dur, hfr, hf, hdur⟩ := cav_fraction c source dt vapor pressure noise
    have hT0 : 0 < c.fullDuration := he.trans_le hT
    rw [← hd, hdur, hf, hm] at hfr
    simp only [Bool.true_or, if_true] at hfr
    rw [max_eq_left hT] at hfr
    have hr : 1 / 10 ≤ √(max c.fraction (1 / 100)) := by
      apply Real.le_sqrt_of_sq_le
      exact le_trans (by norm_num) (le_max_right _ _)
    obtain ⟨m, hmm⟩ : ∃ m, m = max c.fraction (1 / 100) := ⟨_, rfl⟩
    rw [← hmm] at hfr hr
    have hm0 : 0 ≤ m := by rw [hmm]; exact h0.trans (le_max_left _ _)
    have hx : c.fraction + dt / (5 * c.fullDuration) ≤ c.fraction + 2 * √m * dt / c.fullDuration := by
      have : dt / (5 * c.fullDuration) = 2 * (1 / 10) * dt / c.fullDuration := by ring
      rw [this]
      have := div_le_div_of_nonneg_right (mul_le_mul_of_nonneg_right (mul_le_mul_of_nonneg_left hr (by norm_num : (0 : ℝ) ≤ 2)) hdt) hT0.le
      linarith
    have hx0 : 0 ≤ c.fraction + 2 * √m * dt / c.fullDuration := by positivity
    have hmin : d.fraction = min (c.fraction + 2 * √m * dt / c.fullDuration) 1 := by
      rw [hfr]
      unfold limitRange
      exact max_eq_left (le_min hx0 (by norm_num))
    have hd0 : 0 ≤ d.fraction := by rw [hmin]; exact le_min hx0 (by norm_num)
    have hd1 : d.fraction ≤ 1 := by rw [hmin]; exact min_le_right _ _
    have hmal : d.malfFull = true := by rw [hd]; exact hm
    have hdd : d.fullDuration = c.fullDuration := by rw [hd]; rfl
    obtain ⟨i1, i2, i3⟩ := ih d hmal (hdd.symm ▸ hT) hd0 hd1 (fun s hs => hl s (List.mem_cons_of_mem _ hs))
    rw [hdd] at i1 i3
    have ht0 : 0 ≤ (l.map (fun s => s.1)).sum := by
      apply List.sum_nonneg
      intro y hy
      obtain ⟨s, hs, rfl⟩ := List.mem_map.mp hy
      exact hl s (List.mem_cons_of_mem _ hs)
    have hrun : c73Run c ((dt, source, vapor, pressure, noise) :: l) = c73Run d l := by rw [hd]; rfl
    rw [hrun]
    simp only [List.map_cons, List.sum_cons]
    refine ⟨?_, i2, ?_⟩
    · refine le_trans ?_ i1
      have ht5 : 0 ≤ (l.map (fun s => s.1)).sum / (5 * c.fullDuration) := by positivity
      rw [add_div]
      rcases le_total (c.fraction + 2 * √m * dt / c.fullDuration) 1 with h | h
      · rw [hmin, min_eq_left h]
        exact min_le_min_left _ (by linarith)
      · rw [hmin, min_eq_right h]
        exact le_min (min_le_left _ _) ((min_le_left _ _).trans (by linarith))
    · have hk : √(max d.fraction (1 / 100)) ≤ √m + dt / c.fullDuration := by
        apply Real.sqrt_le_iff.mpr
        refine ⟨by positivity, ?_⟩
        have hsq : (√m + dt / c.fullDuration) ^ 2 = m + 2 * √m * dt / c.fullDuration + (dt / c.fullDuration) ^ 2 := by
          rw [add_sq, Real.sq_sqrt hm0]; ring
        rw [hsq]
        have a1 : 0 ≤ 2 * √m * dt / c.fullDuration := by positivity
        have a2 : 0 ≤ (dt / c.fullDuration) ^ 2 := by positivity
        have a3 : c.fraction ≤ m := by rw [hmm]; exact le_max_left _ _
        have a4 : 1 / 100 ≤ m := by rw [hmm]; exact le_max_right _ _
        apply max_le
        · rw [hmin]; exact (min_le_left _ _).trans (by linarith)
        · linarith
      rw [add_div]
      rw [← hmm]
      linarith

/-- After cavitation, without cause, the fraction goes back, and is 0 after 5 times the last duration. -/
theorem c73_recovers (c : Cav) (hm : c.malfFull = false) (hp : c.malfPartial = false) (hT : dblEps ≤ c.duration) (h0 : 0 ≤ c.fraction)
    (h1 : c.fraction ≤ 1) (l : List (ℝ × ℝ × ℝ × ℝ × ℝ)) (hl : ∀ s ∈ l, 0 ≤ s.1 ∧ s.2.2.1 ≤ s.2.2.2.1) :
    let t := (l.map (fun s => s.1)).sum
    0 ≤ (c73Run c l).fraction ∧ (c73Run c l).fraction ≤ max 0 (c.fraction - t / (5 * c.duration)) := by
  have he := dblEps_pos (K := ℝ)
  induction l generalizing c with
  | nil =>
    simp only [c73Run, List.map_nil, List.sum_nil, zero_div, sub_zero]
    exact ⟨h0, le_max_right _ _⟩
  | cons s l ih =>
    obtain ⟨dt, source, vapor, pressure, noise⟩ := s
    obtain ⟨hdt, hv⟩ := hl _ (List.mem_cons_self)
    dsimp only at hdt hv
    obtain ⟨d, hd⟩ : ∃ d, d = (c.step source dt vapor pressure noise).1 := ⟨_, rfl⟩
    obtain ⟨full, dur, hfr, hf, hdur⟩ := cav_fraction c source dt vapor pressure noise
    have hT0 : 0 < c.duration := he.trans_le hT
    have hdec : decide (pressure < vapor) = false := decide_eq_false (not_lt.mpr hv)
    rw [← hd, hdur, hf, hm, hp, hdec] at hfr
    simp only [Bool.and_false, Bool.or_false, Bool.false_eq_true, if_false] at hfr
    rw [max_eq_left hT] at hfr
    have hr : 1 / 10 ≤ √(1 - min c.fraction (99 / 100)) := by
      apply Real.le_sqrt_of_sq_le
      have := min_le_right c.fraction (99 / 100)
      linarith
    obtain ⟨m, hmm⟩ : ∃ m, m = √(1 - min c.fraction (99 / 100)) := ⟨_, rfl⟩
    rw [← hmm] at hfr hr
    have hx : c.fraction - 2 * m * dt / c.duration ≤ c.fraction - dt / (5 * c.duration) := by
      have : dt / (5 * c.duration) = 2 * (1 / 10) * dt / c.duration := by ring
      rw [this]
      have := div_le_div_of_nonneg_right (mul_le_mul_of_nonneg_right (mul_le_mul_of_nonneg_left hr (by norm_num : (0 : ℝ) ≤ 2)) hdt) hT0.le
      linarith
    have hdec0 : 0 ≤ dt / (5 * c.duration) := by positivity
    have hd0 : 0 ≤ d.fraction ∧ d.fraction ≤ 1 := by rw [hfr]; exact lim_mem (by norm_num)
    have hdle : d.fraction ≤ max 0 (c.fraction - dt / (5 * c.duration)) := by
      rw [hfr]
      unfold limitRange
      apply max_le
      · exact (min_le_left _ _).trans (hx.trans (le_max_right _ _))
      · exact le_max_left _ _
    have hm1 : d.malfFull = false := by rw [hd]; exact hm
    have hp1 : d.malfPartial = false := by rw [hd]; exact hp
    have hdd : d.duration = c.duration := by
      have : d.duration = max (if c.malfFull then c.fullDuration else if (c.enableAuto && decide (pressure < vapor)) then c.autoDuration
        else if c.malfPartial then c.partialDuration else c.duration) dblEps := by rw [hd]; rfl
      rw [this, hm, hp, hdec]
      simp [hT]
    obtain ⟨i1, i2⟩ := ih d hm1 hp1 (hdd.symm ▸ hT) hd0.1 hd0.2 (fun s hs => hl s (List.mem_cons_of_mem _ hs))
    have hrun : c73Run c ((dt, source, vapor, pressure, noise) :: l) = c73Run d l := by rw [hd]; rfl
    rw [hrun]
    refine ⟨i1, i2.trans ?_⟩
    rw [hdd]
    simp only [List.map_cons, List.sum_cons]
    have ht0 : 0 ≤ (l.map (fun s => s.1)).sum / (5 * c.duration) := by
      apply div_nonneg _ (by positivity)
      apply List.sum_nonneg
      intro y hy
      obtain ⟨s, hs, rfl⟩ := List.mem_map.mp hy
      exact (hl s (List.mem_cons_of_mem _ hs)).1
    rw [add_div]
    apply max_le (le_max_left _ _)
    rcases le_max_iff.mp hdle with h | h
    · exact le_trans (by linarith) (le_max_left _ _)
    · exact le_trans (by linarith) (le_max_right _ _)

private noncomputable def sampleCav : Cav where
  malfFull := false
  fullDuration := 0
  malfPartial := true
  partialDuration := 10
  partialAmplitude := 0
  enableAuto := false
  autoDuration := 0
  autoAmplitude := 0
  elapsed := 0
  duration := 10
  fraction := 0

private noncomputable def sampleCavFull : Cav where
  malfFull := true
  fullDuration := 1
  malfPartial := false
  partialDuration := 0
  partialAmplitude := 0
  enableAuto := false
  autoDuration := 0
  autoAmplitude := 0
  elapsed := 0
  duration := 1
  fraction := 1

/-- A pump that runs backwards: with noise its source is cut off at zero, so the least partial cavitation stops it. -/
theorem c73_reverse_noise : ∃ c : Cav, c.malfFull = false ∧ c.enableAuto = false ∧ c.malfPartial = true ∧ c.fraction = 0 ∧
    ∀ a, 0 < a → ∀ source, source ≤ 0 → ∀ vapor pressure,
      ((Cav.step { c with partialAmplitude := a } source 1 vapor pressure 0).2 = 0 ∧
        (Cav.step { c with partialAmplitude := a } source 1 vapor pressure 0).1.fraction = 0) := by
  refine ⟨sampleCav, rfl, rfl, rfl, rfl, ?_⟩
  intro a ha source hs vapor pressure
  have hd : max (10 : ℝ) dblEps = 10 := max_eq_left (by have := dblEps_lt_one (K := ℝ); linarith)
  have hf : limitRange (0 : ℝ) (0 - 2 * √(1 - min 0 (99 / 100)) * 1 / 10) 1 = 0 := by
    unfold limitRange
    apply max_eq_right
    refine (min_le_left _ _).trans ?_
    have : 0 ≤ √(1 - min (0 : ℝ) (99 / 100)) := Real.sqrt_nonneg _
    linarith
  have hn : a * max 0 (1 - (0 + 1) / 10) > 0 := by
    apply mul_pos ha
    norm_num
  unfold Cav.step sampleCav
  simp only [Bool.false_and, Bool.or_false, Bool.false_eq_true, if_false, Bool.false_or, if_true, hd, hf]
  rw [if_pos hn]
  refine ⟨?_, trivial⟩
  rw [max_eq_left]
  linarith

private noncomputable def samplePump : Fan :=
  { sampleFan with
    coeffs := fun k => if k = 0 then 3600 else if k = 2 then -64 else 0
    refQ := 15 / 2
    sysConst := 1 / 6
    sourceQ := 6 }

private theorem samplePump_source : (samplePump.computeSource 1).pot.src = 1296 := by
  have he : (fltEps : ℝ) < 1 := by unfold fltEps; norm_num
  have hd : (dblEps : ℝ) < 1 / 6 := by unfold dblEps; norm_num
  have h1 : samplePump.impellerSpeed / samplePump.refSpeed = 1 := by norm_num [samplePump, sampleFan]
  have h2 : (1 : ℝ) / samplePump.refDensity = 1 := by norm_num [samplePump, sampleFan]
  have hs : samplePump.impellerSpeed > fltEps := by
    show fltEps < (60 : ℝ)
    linarith
  have ha : (fun k : ℕ => samplePump.coeffs k * (1 / samplePump.refDensity) * (samplePump.impellerSpeed / samplePump.refSpeed) ^ (2 - (k : ℝ))) =
      samplePump.coeffs := by
    funext k
    rw [h1, h2, Real.one_rpow, mul_one, mul_one]
  have ha' : ∀ k : ℕ, samplePump.coeffs k * (1 / samplePump.refDensity) * (samplePump.impellerSpeed / samplePump.refSpeed) ^ (2 - (k : ℝ)) =
      samplePump.coeffs k := congrFun ha
  have hG : ∀ g, samplePump.filterGain * g + (1 - samplePump.filterGain) * samplePump.sysConst = 1 / 6 := by
    intro g
    have : samplePump.filterGain = 0 := rfl
    rw [this]
    have : samplePump.sysConst = 1 / 6 := rfl
    rw [this]; ring
  have hroot : improveRoot (fun k => if k = 2 then samplePump.coeffs 2 - 1 / (1 / 6) / (1 / 6) else samplePump.coeffs k) 6 (15 / 2) = some 6 := by
    have hL : Laguerre.solve (fun k => (((fun k => if k = 2 then samplePump.coeffs 2 - 1 / (1 / 6) / (1 / 6) else samplePump.coeffs k) k : ℝ) : ℂ)) 5
        ((6 : ℝ) : ℂ) = some (1, ((6 : ℝ) : ℂ)) := by
      apply c72_kept (by norm_num)
      simp only [sum_range_succ, range_zero, sum_empty, samplePump]
      norm_num
    unfold improveRoot
    rw [hL]
    dsimp only
    rw [if_pos]
    · simp
    · refine ⟨by norm_num, ?_⟩
      rw [Complex.ofReal_im, abs_zero]
      exact dblEps_pos
  unfold Fan.computeSource
  rw [if_pos ⟨hs, he⟩]
  simp only [ha', hG]
  rw [if_pos hd, h1, mul_one]
  have h3 : samplePump.sourceQ = 6 := rfl
  have h4 : samplePump.refQ = 15 / 2 := rfl
  rw [h3, h4, hroot]
  dsimp only
  rw [curve_sum]
  simp only [sum_range_succ, range_zero, sum_empty, samplePump]
  norm_num

/-- The check valve of a pump is set by the source pressure before cavitation: with a pump that has lost its pressure to cavitation, the
valve is open and fluid flows back through it. -/
theorem c73_pump_backflow : ∃ (n : Fan) (c : Cav) (f0 f1 : Fl), n.checkActive = true ∧ f0.p < f1.p ∧
    (∀ dt, 0 ≤ dt → ∀ vapor pressure noise,
      (pumpStep n c f0 f1 false dt vapor pressure noise).2.fraction = 1 ∧
      (pumpStep n c f0 f1 false dt vapor pressure noise).1.pot.src = 0 ∧
      (pumpStep n c f0 f1 false dt vapor pressure noise).1.position = 1 ∧
      (pumpStep n c f0 f1 false dt vapor pressure noise).1.pot.flux f0.p f1.p < 0) := by
  refine ⟨samplePump, sampleCavFull,
    { rho := 1, mw := 1, p := 100 }, { rho := 1, mw := 1, p := 200 }, rfl, by norm_num, ?_⟩
  intro dt hdt vapor pressure noise
  obtain ⟨c, hc⟩ : ∃ c : Cav, c = sampleCavFull := ⟨_, rfl⟩
  rw [← hc]
  have hcav : ∀ s, (c.step s dt vapor pressure noise).1.fraction = 1 ∧ (c.step s dt vapor pressure noise).2 = 0 := by
    intro s
    have hd : max (1 : ℝ) dblEps = 1 := max_eq_left (dblEps_lt_one (K := ℝ)).le
    have hf : limitRange (0 : ℝ) (1 + 2 * √(max 1 (1 / 100)) * dt / 1) 1 = 1 := by
      unfold limitRange
      have : 0 ≤ √(max (1 : ℝ) (1 / 100)) := Real.sqrt_nonneg _
      rw [min_eq_right, max_eq_left] <;> [norm_num; skip]
      have := mul_nonneg (mul_nonneg (by norm_num : (0 : ℝ) ≤ 2) this) hdt
      rw [div_one]; linarith
    rw [hc]
    unfold Cav.step sampleCavFull
    simp only [Bool.false_and, Bool.or_false, if_true, hd, hf]
    refine ⟨trivial, ?_⟩
    rw [zero_mul, if_neg (lt_irrefl _)]; ring
  have hdr : (if samplePump.driveRatio > dblEps then { samplePump with impellerSpeed := samplePump.motorSpeed / samplePump.driveRatio } else samplePump) =
      samplePump := by
    have h1 : samplePump.driveRatio = 1 := rfl
    rw [h1, if_pos (dblEps_lt_one (K := ℝ))]
    have h2 : samplePump.motorSpeed / 1 = samplePump.impellerSpeed := by
      show (60 : ℝ) / 1 = 60
      norm_num
    rw [h2]
  obtain ⟨u, hu⟩ : ∃ u, u = samplePump.computeSource 1 := ⟨_, rfl⟩
  have hus : u.pot.src = 1296 := by rw [hu]; exact samplePump_source
  have hud : u.pot.duct = sampleDuct := by
    rw [hu]
    unfold Fan.computeSource
    split_ifs <;> rfl
  have hst : samplePump.updateState 100 200 1 = { u with
      position := 1
      pot := { u.pot with
        duct := { u.pot.duct with
          effCond := u.pot.duct.maxCond * 1 } } } := by
    unfold Fan.updateState
    dsimp only
    rw [hdr, ← hu, if_pos (Or.inl (by rw [hus]; norm_num))]
  obtain ⟨r, hr⟩ : ∃ r, r = pumpStep samplePump c { rho := 1, mw := 1, p := 100 } { rho := 1, mw := 1, p := 200 } false dt vapor pressure noise :=
    ⟨_, rfl⟩
  rw [← hr]
  have hr' : r = (Fan.finish { samplePump.updateState 100 200 1 with
      pot := { (samplePump.updateState 100 200 1).pot with
        src := (c.step (samplePump.updateState 100 200 1).pot.src dt vapor pressure noise).2 } }
      { rho := 1, mw := 1, p := 100 } { rho := 1, mw := 1, p := 200 },
      (c.step (samplePump.updateState 100 200 1).pot.src dt vapor pressure noise).1) := by rw [hr]; rfl
  rw [(hcav _).2] at hr'
  have hmat : r.1.pot.duct.matrix 0 = √100000 / 100 := by
    have h0 : r.1.pot.duct = Duct.finish { sampleDuct with effCond := sampleDuct.maxCond * 1 } { rho := 1, mw := 1, p := 100 } { rho := 1, mw := 1, p := 200 } := by
      rw [hr', hst, ← hud]; rfl
    rw [h0]
    unfold Duct.finish
    dsimp only
    rw [build_matrix]
    have hA : computeAdmittance 1 1 { rho := 1, mw := 1, p := 100 } { rho := 1, mw := 1, p := 200 } (1 / 2) = √100000 / 100 := by
      have hw : useMW { rho := 1, mw := 1, p := 100 } { rho := 1, mw := 1, p := 200 } = 1 := by
        unfold useMW
        rw [if_neg (not_lt.mpr (dblEps_lt_one (K := ℝ)).le), if_neg (not_lt.mpr (dblEps_lt_one (K := ℝ)).le)]; norm_num
      have hp : max (1 : ℝ) |100 - 200| = 100 := by norm_num [abs_of_neg]
      unfold computeAdmittance
      dsimp only
      rw [hw, hp, if_pos ⟨by have := dblEps_lt_one (K := ℝ); linarith, dblEps_lt_one (K := ℝ)⟩]
      unfold power limitRange paPerKpa
      norm_num
    show limitRange 0 (computeAdmittance (1 * 1) 1 { rho := 1, mw := 1, p := 100 } { rho := 1, mw := 1, p := 200 } (1 / 2)) conductanceLimit = _
    rw [mul_one, hA]
    have h5 : √100000 ≤ 100000 := by
      rw [Real.sqrt_le_left (by norm_num)]; norm_num
    unfold limitRange conductanceLimit
    rw [min_eq_left, max_eq_left (by positivity)]
    rw [div_le_iff₀ (by norm_num)]
    linarith
  have hsrc : r.1.pot.src = 0 := by rw [hr']; rfl
  refine ⟨by rw [congrArg Prod.snd hr']; exact (hcav (samplePump.updateState 100 200 1).pot.src).1, hsrc, by rw [hr', hst]; rfl, ?_⟩
  have hflux : r.1.pot.flux 100 200 = (100 - 200) * r.1.pot.duct.matrix 0 - r.1.pot.s0 := rfl
  have hs0 : r.1.pot.s0 = -r.1.pot.src * r.1.pot.duct.matrix 0 := by rw [hr']; rfl
  show r.1.pot.flux 100 200 < 0
  rw [hflux, hs0, hsrc, hmat]
  have : 0 < √100000 := Real.sqrt_pos.mpr (by norm_num)
  linarith

/-! ### Pressure head -/

private theorem dot3 (a b : Dyn.Arr ℝ) : Dyn.dotV a b 3 = a 0 * b 0 + a 1 * b 1 + a 2 * b 2 := by
  unfold Dyn.dotV; simp [loop_succ]

/-- The pressure head is density times acceleration along the column, in kPa; it changes its sign with the acceleration and with the
direction of the column, and does not depend on the frame: with a rotation of the acceleration's frame into the structure's (or back, as the
option says), and the column rotated likewise, it is that of the vectors before rotation. -/
theorem c73_head (h : Head) (a col m : Dyn.Arr ℝ) (rho : ℝ) :
    h.ofPotential a rho rho = rho * (h.accel a 0 * h.column 0 + h.accel a 1 * h.column 1 + h.accel a 2 * h.column 2) / 1000 ∧
    (∀ r0 r1, h.ofPotential a r0 r1 = h.ofPotential a r1 r0 ∧
      { h with column := fun i => -h.column i }.ofPotential a r0 r1 = -h.ofPotential a r0 r1 ∧
      { h with reverse := !h.reverse }.ofPotential a r0 r1 = -h.ofPotential a r0 r1) ∧
    (Dyn.toMat 3 m * (Dyn.toMat 3 m).transpose = 1 →
      Head.ofPotential { column := Dyn.multiplyMV m col 3, reverse := h.reverse, dcm := some m, transpose := false } a rho rho =
        Head.ofPotential { column := col, reverse := h.reverse, dcm := none, transpose := h.transpose } a rho rho ∧
      Head.ofPotential { column := Dyn.multiplyMtV m col 3, reverse := h.reverse, dcm := some m, transpose := true } a rho rho =
        Head.ofPotential { column := col, reverse := h.reverse, dcm := none, transpose := h.transpose } a rho rho) ∧
    (∀ r0 r1, min r0 r1 = rho → ∀ x, h.ofAccum a rho x = x * h.ofPotential a r0 r1) := by
  have hneg : Head.accel { h with reverse := !h.reverse } a 0 = -h.accel a 0 ∧ Head.accel { h with reverse := !h.reverse } a 1 = -h.accel a 1 ∧
      Head.accel { h with reverse := !h.reverse } a 2 = -h.accel a 2 := by
    unfold Head.accel Dyn.scaleV Dyn.multiplyMtV Dyn.multiplyMV
    cases h.reverse <;> cases h.dcm <;> cases h.transpose <;> simp [loop_succ] <;> refine ⟨?_, ?_, ?_⟩ <;> ring
  refine ⟨?_, ?_, ?_, ?_⟩
  · unfold Head.ofPotential
    rw [min_self, dot3]; ring
  · intro r0 r1
    refine ⟨?_, ?_, ?_⟩
    · unfold Head.ofPotential
      rw [min_comm]
    · have : Head.accel { h with column := fun i => -h.column i } a = h.accel a := rfl
      unfold Head.ofPotential
      rw [this, dot3, dot3]; ring
    · unfold Head.ofPotential
      rw [dot3, dot3, hneg.1, hneg.2.1, hneg.2.2]; ring
  · intro hm
    have hm' : (Dyn.toMat 3 m).transpose * Dyn.toMat 3 m = 1 := mul_eq_one_comm.mp hm
    have key1 : ∀ v w : Dyn.Arr ℝ, Dyn.dotV (Dyn.multiplyMV m v 3) (Dyn.multiplyMV m w 3) 3 = Dyn.dotV v w 3 := by
      intro v w
      rw [Dyn.dotV_eq, Dyn.dotV_eq, Dyn.multiplyMV_eq, Dyn.multiplyMV_eq, Matrix.dotProduct_mulVec, ← Matrix.mulVec_transpose,
        Matrix.mulVec_mulVec, hm', Matrix.one_mulVec]
    have key2 : ∀ v w : Dyn.Arr ℝ, Dyn.dotV (Dyn.multiplyMtV m v 3) (Dyn.multiplyMtV m w 3) 3 = Dyn.dotV v w 3 := by
      intro v w
      rw [Dyn.dotV_eq, Dyn.dotV_eq, Dyn.multiplyMtV_eq, Dyn.multiplyMtV_eq, Matrix.dotProduct_mulVec, ← Matrix.mulVec_transpose,
        Matrix.transpose_transpose, Matrix.mulVec_mulVec, hm, Matrix.one_mulVec]
    constructor
    · unfold Head.ofPotential
      congr 2
      exact key1 _ _
    · unfold Head.ofPotential
      congr 2
      exact key2 _ _
  · intro r0 r1 hr x
    unfold Head.ofAccum Head.ofPotential Dyn.scaleV
    rw [hr, dot3, dot3]; ring

/-- Around a closed loop of columns of equal density under the same acceleration, the heads add up to nothing. -/
theorem c73_head_loop (h : Head) (a : Dyn.Arr ℝ) (rho : ℝ) (cols : List (Dyn.Arr ℝ))
    (hc : ∀ i, i < 3 → (cols.map (fun c => c i)).sum = 0) :
    (cols.map (fun c => Head.ofPotential { h with column := c } a rho rho)).sum = 0 := by
  have key : ∀ l : List (Dyn.Arr ℝ), (l.map (fun c => Head.ofPotential { h with column := c } a rho rho)).sum =
      rho / 1000 * (h.accel a 0 * (l.map (fun c => c 0)).sum + h.accel a 1 * (l.map (fun c => c 1)).sum +
        h.accel a 2 * (l.map (fun c => c 2)).sum) := by
    intro l
    induction l with
    | nil => simp
    | cons c l ih =>
      simp only [List.map_cons, List.sum_cons, ih]
      have : Head.ofPotential { h with column := c } a rho rho = rho * (h.accel a 0 * c 0 + h.accel a 1 * c 1 + h.accel a 2 * c 2) * (1 / 1000) := by
        unfold Head.ofPotential
        rw [min_self, dot3]; rfl
      rw [this]; ring
  rw [key, hc 0 (by norm_num), hc 1 (by norm_num), hc 2 (by norm_num)]; ring

/-- A fan on its curve: at the reference speed and density the pressure at the flow of the crossing with the system's curve. -/
example : (samplePump.computeSource 1).pot.src = 1296 ∧ (0 : ℝ) < 1296 := ⟨samplePump_source, by norm_num⟩

/-- A loop up and down in gravity, with heads that are not zero. -/
example : Head.ofPotential { column := Dyn.arr [0, 0, -2], reverse := false, dcm := none, transpose := false } (Dyn.arr [0, 0, -10]) 1000 1000 = 20 ∧
    ∀ i, i < 3 → ([Dyn.arr [0, 0, -2], Dyn.arr [1, 0, 0], Dyn.arr [0, 0, 2], Dyn.arr [-1, 0, 0]].map (fun c : Dyn.Arr ℝ => c i)).sum = 0 := by
  constructor
  · unfold Head.ofPotential Head.accel
    rw [min_self]
    simp only [Bool.false_eq_true, if_false]
    rw [dot3]
    simp [Dyn.arr]; norm_num
  · intro i hi
    have : i = 0 ∨ i = 1 ∨ i = 2 := by omega
    rcases this with rfl | rfl | rfl <;> simp [Dyn.arr]

end Gunns.Props
