import Verif.Fluid.Hatch
import Mathlib.Algebra.BigOperators.Field

/-!
# C70: gas diffuses through hatches from high to low mole fraction

All of computeGasDiffusion, computeConductiveHeatFlux and the transport of the diffusive flow by a hatch, for any number of
compounds.
-/

namespace Gunns.Props

open Gunns Gunns.Hatch Gunns.Interp
open Finset (range)

/-! ## Lemmas -/

private theorem sum_loop (m : ℕ → ℝ) (n : ℕ) : loop (fun i s => s + m i) n 0 = ∑ i ∈ range n, m i := by
  induction n with
  | zero => rfl
  | succ n ih => rw [loop_succ, ih, Finset.sum_range_succ]

private theorem twoWay_eq (j : ℕ → ℝ) (n : ℕ) :
    twoWay n j = (∑ i ∈ range n, max (j i) 0, ∑ i ∈ range n, min (j i) 0) := by
  unfold twoWay
  induction n with
  | zero => rfl
  | succ n ih =>
    rw [loop_succ, ih, Finset.sum_range_succ, Finset.sum_range_succ]
    by_cases h : j n ≥ 0
    · rw [if_pos h, max_eq_left h, min_eq_right h, add_zero]
    · rw [if_neg h, max_eq_right (le_of_not_ge h), min_eq_left (le_of_not_ge h), add_zero]

private theorem lb_pos : 0 < lambdaBase := by unfold lambdaBase; norm_num

private theorem flt_pos : (0 : ℝ) < fltEps := by unfold fltEps; norm_num

private theorem eps_pos : (0 : ℝ) < dblEps := dblEps_pos

private theorem diffusivity_nonneg {l0 l1 : ℝ} {f0 f1 : Mix} (h0 : 0 ≤ l0) (h1 : 0 ≤ l1) (t0 : 0 ≤ f0.t) (t1 : 0 ≤ f1.t) :
    0 ≤ diffusivity l0 l1 f0 f1 := by
  unfold diffusivity
  have a : 0 ≤ f0.t / max f0.p fltEps := div_nonneg t0 (flt_pos.le.trans (le_max_right _ _))
  have b : 0 ≤ f1.t / max f1.p fltEps := div_nonneg t1 (flt_pos.le.trans (le_max_right _ _))
  have c : 0 ≤ 1 / (l0 + l1) := by positivity
  have d := lb_pos
  have e := Real.sqrt_nonneg (3000 * gasConstant * max dblEps (mean l0 l1 f0.t f1.t) / max dblEps (mean l0 l1 f0.mw f1.mw))
  positivity

private theorem mean_swap (l0 l1 a b : ℝ) : mean l1 l0 b a = mean l0 l1 a b := by
  unfold mean; rw [add_comm l1 l0, add_comm (b * l1)]

private theorem diffusivity_swap (l0 l1 : ℝ) (f0 f1 : Mix) : diffusivity l1 l0 f1 f0 = diffusivity l0 l1 f0 f1 := by
  unfold diffusivity
  simp only [mean_swap l0 l1]
  rw [add_comm l1 l0, add_comm (f1.t / max f1.p fltEps * l1)]

private theorem molar_swap (l0 l1 : ℝ) (f0 f1 : Mix) : meanMolar l1 l0 f1 f0 = meanMolar l0 l1 f0 f1 := by
  unfold meanMolar
  rw [mean_swap l0 l1]

private theorem molar_pos (l0 l1 : ℝ) (f0 f1 : Mix) : 0 < meanMolar l0 l1 f0 f1 :=
  lt_of_lt_of_le eps_pos (le_max_left _ _)

private theorem flux_eq (l0 l1 : ℝ) (f0 f1 : Mix) (i : ℕ) :
    flux l0 l1 f0 f1 i = diffusivity l0 l1 f0 f1 * meanMolar l0 l1 f0 f1 * (1 / (l0 + l1)) * (f0.x i - f1.x i) := by
  unfold flux; ring

private theorem flux_swap (l0 l1 : ℝ) (f0 f1 : Mix) (i : ℕ) : flux l1 l0 f1 f0 i = -flux l0 l1 f0 f1 i := by
  rw [flux_eq, flux_eq, diffusivity_swap, molar_swap, add_comm l1 l0]; ring

private theorem ratio_range (area bulk mw0 mw1 : ℝ) (s : ℝ × ℝ) : 0 ≤ ratio area bulk mw0 mw1 s ∧ ratio area bulk mw0 mw1 s ≤ 1 := by
  have k : ∀ x : ℝ, 0 ≤ limitRange 0 x 1 ∧ limitRange 0 x 1 ≤ 1 := fun x =>
    ⟨le_max_right _ _, max_le (min_le_right _ _) zero_le_one⟩
  unfold ratio
  split_ifs
  · exact k _
  · exact k _
  · exact ⟨zero_le_one, le_rfl⟩
  · exact ⟨zero_le_one, le_rfl⟩

private theorem ratio_zero (area mw0 mw1 : ℝ) (s : ℝ × ℝ) : ratio area 0 mw0 mw1 s = 1 := by
  unfold ratio
  split_ifs with h1 h2 h3
  · exact absurd h2.1 (lt_irrefl _)
  · exact absurd h3.1 (lt_irrefl _)
  · rfl
  · rfl

private theorem inner_ratio (x : ℝ) : 0 ≤ x / innerLimit dblEps x ∧ x / innerLimit dblEps x ≤ 1 := by
  by_cases h : dblEps ≤ |x|
  · rw [innerLimit_of_abs_ge h]
    have : x ≠ 0 := fun c => by rw [c, abs_zero] at h; exact absurd h (not_le.mpr eps_pos)
    rw [div_self this]; exact ⟨zero_le_one, le_rfl⟩
  · have h' := abs_lt.mp (not_le.mp h)
    have he := eps_pos
    unfold innerLimit
    rw [if_pos h']
    split_ifs with hs
    · have hx : x < 0 := by rw [add_neg_cancel, mul_zero] at hs; exact hs
      rw [div_neg, ← neg_div]
      exact ⟨div_nonneg (by linarith) he.le, by rw [div_le_one he]; linarith⟩
    · have hx : 0 ≤ x := by rw [add_neg_cancel, mul_zero] at hs; exact not_lt.mp hs
      exact ⟨div_nonneg hx he.le, by rw [div_le_one he]; linarith⟩

private theorem transported_eq (d : Diffused) :
    transported d = if |d.net| > 100 * dblEps then (fun i => -d.net * d.fraction i, fun i => d.net * d.fraction i)
      else (fun _ => 0, fun _ => 0) := by
  have he := eps_pos
  unfold transported
  rcases lt_or_ge (100 * dblEps) d.net with h | h
  · rw [if_pos h, if_pos (lt_of_lt_of_le h (le_abs_self _))]
  · rw [if_neg (not_lt.mpr h)]
    by_cases h2 : d.net < -(100 * dblEps)
    · rw [if_pos h2, if_pos]
      rw [abs_of_neg (by linarith)]; show 100 * dblEps < -d.net; linarith
    · rw [if_neg h2, if_neg]
      exact not_lt.mpr (abs_le.mpr ⟨not_lt.mp h2, h⟩)

private theorem diffusion_eq {l0 l1 : ℝ} (hl : dblEps < l0 + l1) (n : ℕ) (w : ℕ → ℝ) (area : ℝ) (f0 f1 : Mix) (bulk : ℝ) :
    diffusion n w area f0 f1 bulk l0 l1 = some
      { net := (∑ i ∈ range n, flux l0 l1 f0 f1 i * w i * ratio area bulk f0.mw f1.mw (twoWay n (flux l0 l1 f0 f1))) * area
        fraction := fun i => flux l0 l1 f0 f1 i * w i * ratio area bulk f0.mw f1.mw (twoWay n (flux l0 l1 f0 f1)) /
          innerLimit dblEps (∑ i ∈ range n, flux l0 l1 f0 f1 i * w i * ratio area bulk f0.mw f1.mw (twoWay n (flux l0 l1 f0 f1)))
        t := if (∑ i ∈ range n, flux l0 l1 f0 f1 i * w i * ratio area bulk f0.mw f1.mw (twoWay n (flux l0 l1 f0 f1))) * area > 0
          then f1.t else f0.t } := by
  have e : diffusion n w area f0 f1 bulk l0 l1 = _ := if_neg (not_le.mpr hl)
  rw [e]
  simp only [sum_loop]

/-! ## The property -/

/-- Accepted hatches never make the functions throw. -/
theorem c70_accepted {l0 l1 : ℝ} (h : valid l0 l1 = true) (n : ℕ) (w : ℕ → ℝ) (f0 f1 : Mix) (s : Site) :
    (update n w f0 f1 l0 l1 s).isSome = true := by
  have hl : dblEps < l0 + l1 := by
    unfold valid at h
    have : ¬ l0 + l1 < fltEps := fun c => by rw [if_pos c] at h; cases h
    have h2 : (dblEps : ℝ) < fltEps := by unfold dblEps fltEps; norm_num
    linarith
  have e1 := diffusion_eq hl n w s.area f0 f1 s.bulk
  have e2 : conduction s.area f0 f1 l0 l1 = some _ := if_neg (not_le.mpr hl)
  unfold update
  rw [e1, e2]
  split_ifs <;> rfl

/-- What one node loses of a compound, the other gains; each compound's mass flow is, up to a common fraction `r` of all
compounds, area times molecular weight times the diffusive molar flux of Fick's law. It is all of it without bulk flow, or
with one that no compound diffuses against, if the net mass flow is more than the limits of the code. -/
theorem c70_fick {l0 l1 : ℝ} (h0 : 0 ≤ l0) (h1 : 0 ≤ l1) {n : ℕ} {w : ℕ → ℝ} {area : ℝ}
    {f0 f1 : Mix} (t0 : 0 ≤ f0.t) (t1 : 0 ≤ f1.t) {bulk : ℝ} {d : Diffused}
    (hd : diffusion n w area f0 f1 bulk l0 l1 = some d) :
    (∀ i, (transported d).1 i + (transported d).2 i = 0) ∧
    ∃ r c, 0 ≤ r ∧ r ≤ 1 ∧ 0 ≤ c ∧ (∀ i, flux l0 l1 f0 f1 i = c * (f0.x i - f1.x i)) ∧
      (∀ i, (transported d).2 i = r * area * w i * (c * (f0.x i - f1.x i))) ∧
      (bulk = 0 → dblEps ≤ |∑ i ∈ range n, w i * (c * (f0.x i - f1.x i))| →
        100 * dblEps < |(∑ i ∈ range n, w i * (c * (f0.x i - f1.x i))) * area| → r = 1) := by
  have hl : dblEps < l0 + l1 := by
    by_contra c
    have e : diffusion n w area f0 f1 bulk l0 l1 = none := if_pos (not_lt.mp c)
    rw [e] at hd; cases hd
  rw [diffusion_eq hl] at hd
  obtain ⟨q, hq⟩ : ∃ q, q = ratio area bulk f0.mw f1.mw (twoWay n (flux l0 l1 f0 f1)) := ⟨_, rfl⟩
  obtain ⟨S, hS⟩ : ∃ S, S = ∑ i ∈ range n, flux l0 l1 f0 f1 i * w i * q := ⟨_, rfl⟩
  rw [← hq, ← hS] at hd
  obtain ⟨c, hc⟩ : ∃ c, c = diffusivity l0 l1 f0 f1 * meanMolar l0 l1 f0 f1 * (1 / (l0 + l1)) := ⟨_, rfl⟩
  have hflux : ∀ i, flux l0 l1 f0 f1 i = c * (f0.x i - f1.x i) := fun i => by rw [flux_eq, hc]
  have hc0 : 0 ≤ c := by
    rw [hc]
    have a := diffusivity_nonneg h0 h1 t0 t1
    have b := molar_pos l0 l1 f0 f1
    positivity
  have hqr := ratio_range area bulk f0.mw f1.mw (twoWay n (flux l0 l1 f0 f1))
  rw [← hq] at hqr
  obtain ⟨i0, i1⟩ := inner_ratio S
  cases hd
  refine ⟨fun i => ?_, ?_⟩
  · rw [transported_eq]
    by_cases hn : |S * area| > 100 * dblEps
    · rw [if_pos hn]
      have : ∀ a b : ℝ, -a * b + a * b = 0 := fun a b => by ring
      exact this _ _
    · rw [if_neg hn]
      exact add_zero 0
  by_cases hnet : |S * area| > 100 * dblEps
  · refine ⟨S / innerLimit dblEps S * q, c, mul_nonneg i0 hqr.1, mul_le_one₀ i1 hqr.1 hqr.2, hc0, hflux, fun i => ?_, ?_⟩
    · rw [transported_eq, if_pos hnet]
      show S * area * (flux l0 l1 f0 f1 i * w i * q / innerLimit dblEps S) = _
      rw [hflux]; ring
    · intro hb hsum _
      have hq1 : q = 1 := by
        rw [hq, hb, ratio_zero]
      have hS' : S = ∑ i ∈ range n, w i * (c * (f0.x i - f1.x i)) := by
        rw [hS, hq1]
        exact Finset.sum_congr rfl (fun i _ => by rw [hflux]; ring)
      rw [← hS'] at hsum
      rw [innerLimit_of_abs_ge hsum, hq1, mul_one, div_self]
      intro c0
      rw [c0, abs_zero] at hsum
      exact absurd hsum (not_le.mpr eps_pos)
  · refine ⟨0, c, le_rfl, zero_le_one, hc0, hflux, fun i => ?_, ?_⟩
    · rw [transported_eq, if_neg hnet]; simp
    · intro hb hsum hbig
      exfalso
      have hq1 : q = 1 := by
        rw [hq, hb, ratio_zero]
      have hS' : S = ∑ i ∈ range n, w i * (c * (f0.x i - f1.x i)) := by
        rw [hS, hq1]
        exact Finset.sum_congr rfl (fun i _ => by rw [hflux]; ring)
      rw [← hS'] at hbig
      exact hnet hbig

/-- Every compound goes from the node with the higher mole fraction to the one with the lower, and none if all are equal; the
moles that go one way are as many as those that go the other. -/
theorem c70_direction {l0 l1 : ℝ} (h0 : 0 ≤ l0) (h1 : 0 ≤ l1) {n : ℕ} {w : ℕ → ℝ} (hw : ∀ i, 0 < w i) {area : ℝ} (ha : 0 ≤ area)
    {f0 f1 : Mix} (t0 : 0 ≤ f0.t) (t1 : 0 ≤ f1.t) {bulk : ℝ} {d : Diffused}
    (hd : diffusion n w area f0 f1 bulk l0 l1 = some d) :
    (∀ i, f1.x i ≤ f0.x i → 0 ≤ (transported d).2 i) ∧ (∀ i, f0.x i ≤ f1.x i → (transported d).2 i ≤ 0) ∧
    (∑ i ∈ range n, f0.x i = ∑ i ∈ range n, f1.x i → ∑ i ∈ range n, (transported d).2 i / w i = 0) := by
  obtain ⟨-, r, c, hr, -, hc, -, hf, -⟩ := c70_fick h0 h1 t0 t1 hd
  have hk : ∀ i, 0 ≤ r * area * w i * c := fun i => mul_nonneg (mul_nonneg (mul_nonneg hr ha) (hw i).le) hc
  refine ⟨fun i h => ?_, fun i h => ?_, fun h => ?_⟩
  · rw [hf, ← mul_assoc]
    exact mul_nonneg (hk i) (by linarith)
  · rw [hf, ← mul_assoc]
    exact mul_nonpos_of_nonneg_of_nonpos (hk i) (by linarith)
  · have e : ∀ i ∈ range n, (transported d).2 i / w i = r * area * c * (f0.x i - f1.x i) := fun i _ => by
      rw [hf, div_eq_iff (hw i).ne']; ring
    rw [Finset.sum_congr rfl e, ← Finset.mul_sum, Finset.sum_sub_distrib, h, sub_self, mul_zero]

/-- With equal pressures, temperatures and molecular weights the coefficient is that of the kinetic theory: mean free path
times mean velocity over three, times the molar density over the length. -/
theorem c70_kinetic {l0 l1 : ℝ} (hl : 0 < l0 + l1) {f0 f1 : Mix} {T P M rho : ℝ} (hT : dblEps ≤ T) (hP : fltEps ≤ P) (hM : dblEps ≤ M)
    (hrho : dblEps ≤ rho / M) (e1 : f0.t = T) (e2 : f1.t = T) (e3 : f0.p = P) (e4 : f1.p = P) (e5 : f0.mw = M) (e6 : f1.mw = M)
    (e7 : f0.density = rho) (e8 : f1.density = rho) (i : ℕ) :
    flux l0 l1 f0 f1 i = 1.3806504e-23 * T / (P * 1000) / 3.0e-19 * √(3 * 8.314472 * T / (M / 1000)) / 3 *
      (rho / M) * (f0.x i - f1.x i) / (l0 + l1) := by
  have hm : ∀ a : ℝ, mean l0 l1 a a = a := fun a => by unfold mean; field_simp
  have hd : diffusivity l0 l1 f0 f1 = 1.3806504e-23 * T / (P * 1000) / 3.0e-19 * √(3 * 8.314472 * T / (M / 1000)) / 3 := by
    unfold diffusivity
    rw [e1, e2, e3, e4, e5, e6]
    simp only [hm]
    rw [max_eq_left hP, max_eq_right hT, max_eq_right hM]
    have : 3000 * gasConstant * T / M = 3 * 8.314472 * T / (M / 1000) := by
      unfold gasConstant
      have : M ≠ 0 := (lt_of_lt_of_le eps_pos hM).ne'
      field_simp
      ring
    rw [this]
    unfold lambdaBase
    have hP' : P ≠ 0 := (lt_of_lt_of_le flt_pos hP).ne'
    field_simp
  have hn : meanMolar l0 l1 f0 f1 = rho / M := by
    unfold meanMolar
    rw [e5, e6, e7, e8, hm, max_eq_right hM, max_eq_right hrho]
  rw [flux_eq, hd, hn]
  ring

/-- The order of the ports does not matter. -/
theorem c70_swap {l0 l1 : ℝ} {n : ℕ} {w : ℕ → ℝ} {area : ℝ} {f0 f1 : Mix} {bulk : ℝ} {d : Diffused}
    (hd : diffusion n w area f0 f1 bulk l0 l1 = some d) :
    ∃ d', diffusion n w area f1 f0 (-bulk) l1 l0 = some d' ∧ d'.net = -d.net ∧
      (transported d').1 = (transported d).2 ∧ (transported d').2 = (transported d).1 := by
  have hl : dblEps < l0 + l1 := by
    by_contra c
    have e : diffusion n w area f0 f1 bulk l0 l1 = none := if_pos (not_lt.mp c)
    rw [e] at hd; cases hd
  rw [diffusion_eq hl] at hd
  refine ⟨_, diffusion_eq (by rw [add_comm]; exact hl) n w area f1 f0 (-bulk), ?_⟩
  have htw : twoWay n (flux l1 l0 f1 f0) = (-(twoWay n (flux l0 l1 f0 f1)).2, -(twoWay n (flux l0 l1 f0 f1)).1) := by
    rw [twoWay_eq, twoWay_eq]
    simp only [flux_swap l0 l1, ← Finset.sum_neg_distrib]
    congr 1
    · exact Finset.sum_congr rfl (fun i _ => by rw [← max_neg_neg, neg_zero])
    · exact Finset.sum_congr rfl (fun i _ => by rw [← min_neg_neg, neg_zero])
  have hrat : ratio area (-bulk) f1.mw f0.mw (twoWay n (flux l1 l0 f1 f0)) =
      ratio area bulk f0.mw f1.mw (twoWay n (flux l0 l1 f0 f1)) := by
    rw [htw]
    obtain ⟨a, b⟩ := twoWay n (flux l0 l1 f0 f1)
    unfold ratio
    simp only [gt_iff_lt, Left.neg_pos_iff, neg_neg_iff_pos]
    have k1 : min 0 (-a + -bulk / f1.mw / area) / -a = max 0 (a + bulk / f1.mw / area) / a := by
      rw [neg_div, neg_div, ← neg_add, ← neg_zero, min_neg_neg, neg_zero, neg_div_neg_eq]
    have k2 : max 0 (-b + -bulk / f0.mw / area) / -b = min 0 (b + bulk / f0.mw / area) / b := by
      rw [neg_div, neg_div, ← neg_add, ← neg_zero, max_neg_neg, neg_zero, neg_div_neg_eq]
    rw [k1, k2]
    split_ifs with a1 a2 a3 a4 <;> first | rfl | (exfalso; linarith [a2.1, a3.1]) 
  obtain ⟨q, hq⟩ : ∃ q, q = ratio area bulk f0.mw f1.mw (twoWay n (flux l0 l1 f0 f1)) := ⟨_, rfl⟩
  rw [hrat, ← hq]
  rw [← hq] at hd
  obtain ⟨S, hS⟩ : ∃ S, S = ∑ i ∈ range n, flux l0 l1 f0 f1 i * w i * q := ⟨_, rfl⟩
  have hS' : ∑ i ∈ range n, flux l1 l0 f1 f0 i * w i * q = -S := by
    rw [hS, ← Finset.sum_neg_distrib]
    exact Finset.sum_congr rfl (fun i _ => by rw [flux_swap l0 l1]; ring)
  rw [← hS] at hd
  rw [hS']
  cases hd
  refine ⟨by show -S * area = -(S * area); ring, ?_, ?_⟩
  all_goals
    rw [transported_eq, transported_eq]
    simp only [neg_mul, abs_neg, flux_swap l0 l1]
    split_ifs with h
    · funext i
      have hin : S ≠ 0 → innerLimit dblEps (-S) = -innerLimit dblEps S := by
        intro hS0
        unfold innerLimit
        by_cases hc : -dblEps < S ∧ S < dblEps
        · rw [if_pos hc, if_pos ⟨by linarith [hc.2], by linarith [hc.1]⟩]
          rcases lt_or_gt_of_ne hS0 with hneg | hpos
          · rw [if_pos (by linarith : S < 1 / 2 * (dblEps + -dblEps)), if_neg (by linarith : ¬ -S < 1 / 2 * (dblEps + -dblEps)), neg_neg]
          · rw [if_neg (by linarith : ¬ S < 1 / 2 * (dblEps + -dblEps)), if_pos (by linarith : -S < 1 / 2 * (dblEps + -dblEps))]
        · rw [if_neg hc, if_neg (fun c => hc ⟨by linarith [c.2], by linarith [c.1]⟩)]
      have hS0 : S ≠ 0 := fun c => by
        rw [c, zero_mul, abs_zero] at h
        have := eps_pos
        linarith
      rw [hin hS0]
      ring
    · rfl

/-- Bulk flow holds back what diffuses against it: of the compounds that diffuse from node 1 to node 0 against a bulk flow, as
many moles less pass as the bulk flow has, until none pass. (For flow the other way by c70_swap.) -/
theorem c70_bulk {l0 l1 : ℝ} {n : ℕ} {w : ℕ → ℝ} (hw : ∀ i, 0 < w i) {area : ℝ} (ha : 0 < area)
    {f0 f1 : Mix} (hmw : 0 < f0.mw) {bulk : ℝ} (hb : 0 < bulk) {d : Diffused}
    (hd : diffusion n w area f0 f1 bulk l0 l1 = some d) (hnet : 100 * dblEps < |d.net|) (hsum : dblEps ≤ |d.net / area|) :
    ∑ i ∈ range n, min ((transported d).2 i / w i) 0 =
      min 0 ((∑ i ∈ range n, min (flux l0 l1 f0 f1 i * area) 0) + bulk / f0.mw) := by
  have hl : dblEps < l0 + l1 := by
    by_contra c
    have e : diffusion n w area f0 f1 bulk l0 l1 = none := if_pos (not_lt.mp c)
    rw [e] at hd; cases hd
  rw [diffusion_eq hl] at hd
  obtain ⟨q, hq⟩ : ∃ q, q = ratio area bulk f0.mw f1.mw (twoWay n (flux l0 l1 f0 f1)) := ⟨_, rfl⟩
  have hqr := ratio_range area bulk f0.mw f1.mw (twoWay n (flux l0 l1 f0 f1))
  rw [← hq] at hd hqr
  obtain ⟨S, hS⟩ : ∃ S, S = ∑ i ∈ range n, flux l0 l1 f0 f1 i * w i * q := ⟨_, rfl⟩
  rw [← hS] at hd
  obtain ⟨N, hN⟩ : ∃ N, N = ∑ i ∈ range n, min (flux l0 l1 f0 f1 i) 0 := ⟨_, rfl⟩
  cases hd
  have hsum' : dblEps ≤ |S| := by
    have : S * area / area = S := by field_simp
    rw [this] at hsum; exact hsum
  have hS0 : S ≠ 0 := fun c => by rw [c, abs_zero] at hsum'; exact absurd hsum' (not_le.mpr eps_pos)
  have hmin : ∀ a k : ℝ, 0 ≤ k → min (a * k) 0 = min a 0 * k := fun a k hk => by
    rw [min_mul_of_nonneg _ _ hk, zero_mul]
  have e1 : ∀ i ∈ range n, min ((transported
      { net := S * area, fraction := fun i => flux l0 l1 f0 f1 i * w i * q / innerLimit dblEps S,
        t := if S * area > 0 then f1.t else f0.t }).2 i / w i) 0 = min (flux l0 l1 f0 f1 i) 0 * (q * area) := by
    intro i _
    rw [transported_eq, if_pos hnet, innerLimit_of_abs_ge hsum', ← hmin _ _ (mul_nonneg hqr.1 ha.le)]
    congr 1
    show S * area * (flux l0 l1 f0 f1 i * w i * q / S) / w i = _
    have := (hw i).ne'
    field_simp
  rw [Finset.sum_congr rfl e1, ← Finset.sum_mul, ← hN]
  have e2 : ∑ i ∈ range n, min (flux l0 l1 f0 f1 i * area) 0 = N * area := by
    rw [hN, Finset.sum_mul]
    exact Finset.sum_congr rfl (fun i _ => hmin _ _ ha.le)
  rw [e2]
  have hN0 : N ≤ 0 := by rw [hN]; exact Finset.sum_nonpos (fun i _ => min_le_right _ _)
  have hbm : 0 < bulk / f0.mw := div_pos hb hmw
  rcases hN0.lt_or_eq with hneg | h00
  · have hq' : q = limitRange 0 (min 0 (N + bulk / f0.mw / area) / N) 1 := by
      rw [hq, twoWay_eq]
      unfold ratio
      rw [if_pos ha, if_pos ⟨hb, by rw [← hN]; exact hneg, hmw.ne'⟩, ← hN]
    have hba : 0 < bulk / f0.mw / area := div_pos hbm ha
    have k0 : 0 ≤ min 0 (N + bulk / f0.mw / area) / N :=
      div_nonneg_of_nonpos (min_le_left _ _) hneg.le
    have k1 : min 0 (N + bulk / f0.mw / area) / N ≤ 1 := by
      rw [div_le_one_of_neg hneg]
      exact le_min hneg.le (by linarith)
    have hq2 : q = min 0 (N + bulk / f0.mw / area) / N := by
      rw [hq']; unfold limitRange; rw [min_eq_left k1, max_eq_left k0]
    rw [hq2]
    have : N * (min 0 (N + bulk / f0.mw / area) / N * area) = min 0 (N + bulk / f0.mw / area) * area := by
      have := hneg.ne
      field_simp
    rw [this, min_mul_of_nonneg _ _ ha.le, zero_mul]
    congr 1
    field_simp
  · rw [h00, zero_mul, zero_mul, zero_add, min_eq_left hbm.le]

/-- Heat is conducted from the hotter to the colder node, with the mean conductivity; the order of the ports does not
matter. -/
theorem c70_conduction {l0 l1 : ℝ} (h0 : 0 ≤ l0) (h1 : 0 ≤ l1) {area : ℝ} (ha : 0 ≤ area) {f0 f1 : Mix} (k0 : 0 ≤ f0.k) (k1 : 0 ≤ f1.k)
    {q : ℝ} (hq : conduction area f0 f1 l0 l1 = some q) :
    (f1.t ≤ f0.t → 0 ≤ q) ∧ (f0.t ≤ f1.t → q ≤ 0) ∧ conduction area f1 f0 l1 l0 = some (-q) ∧
    (f0.k = f1.k → q = f0.k * area * (f0.t - f1.t) / (l0 + l1)) := by
  have hl : dblEps < l0 + l1 := by
    by_contra c
    have e : conduction area f0 f1 l0 l1 = none := if_pos (not_lt.mp c)
    rw [e] at hq; cases hq
  have e : conduction area f0 f1 l0 l1 = some _ := if_neg (not_le.mpr hl)
  rw [e] at hq
  cases hq
  have hp : 0 < l0 + l1 := eps_pos.trans hl
  have hm : 0 ≤ area * mean l0 l1 f0.k f1.k := by unfold mean; positivity
  have hi : 0 ≤ 1 / (l0 + l1) := by positivity
  refine ⟨fun h => ?_, fun h => ?_, ?_, fun h => ?_⟩
  · exact mul_nonneg (mul_nonneg hm (by linarith)) hi
  · exact mul_nonpos_of_nonpos_of_nonneg (mul_nonpos_of_nonneg_of_nonpos hm (by linarith)) hi
  · have e' : conduction area f1 f0 l1 l0 = some _ := if_neg (not_le.mpr (by rw [add_comm]; exact hl))
    rw [e', mean_swap l0 l1, add_comm l1 l0]
    congr 1
    ring
  · rw [h]; unfold mean; field_simp

/-- The hatch diffuses only with small differences of pressure and temperature and between nodes with volume. -/
theorem c70_when (n : ℕ) (w : ℕ → ℝ) (f0 f1 : Mix) (l0 l1 : ℝ) (s : Site) (o : Option Diffused) (q : ℝ)
    (h : update n w f0 f1 l0 l1 s = some (o, q)) :
    (o.isSome = true ↔ (dblEps < s.dt ∧ s.off = true ∧ 0 < s.v0 ∧ 0 < s.v1) ∧ |s.drop| < 1 / 100 ∧ |f0.t - f1.t| < 20) ∧
    (∀ d, o = some d → diffusion n w s.area f0 f1 s.bulk l0 l1 = some d) ∧
    (dblEps < s.dt ∧ s.off = true ∧ 0 < s.v0 ∧ 0 < s.v1 → conduction s.area f0 f1 l0 l1 = some q) ∧
    (¬(dblEps < s.dt ∧ s.off = true ∧ 0 < s.v0 ∧ 0 < s.v1) → q = 0) := by
  have h001 : (0.01 : ℝ) = 1 / 100 := by norm_num
  unfold update at h
  rw [h001] at h
  by_cases ha : s.dt > dblEps ∧ s.off = true ∧ s.v0 > 0 ∧ s.v1 > 0
  · rw [if_pos ha] at h
    by_cases hb : |s.drop| < 1 / 100 ∧ |f0.t - f1.t| < 20
    · rw [if_pos hb] at h
      cases hd : diffusion n w s.area f0 f1 s.bulk l0 l1 with
      | none => rw [hd] at h; cases h
      | some d =>
        cases hc : conduction s.area f0 f1 l0 l1 with
        | none => rw [hd, hc] at h; cases h
        | some c =>
          rw [hd, hc] at h
          cases h
          exact ⟨⟨fun _ => ⟨ha, hb⟩, fun _ => rfl⟩, fun d' e => e, fun _ => rfl, fun k => absurd ha k⟩
    · rw [if_neg hb] at h
      cases hc : conduction s.area f0 f1 l0 l1 with
      | none => rw [hc] at h; cases h
      | some c =>
        rw [hc] at h
        cases h
        exact ⟨⟨(fun k => by cases k), fun k => absurd k.2 hb⟩, (fun d' e => by cases e), fun _ => rfl, fun k => absurd ha k⟩
  · rw [if_neg ha] at h
    cases h
    exact ⟨⟨(fun k => by cases k), fun k => absurd k.1 ha⟩, (fun d' e => by cases e), fun k => absurd k ha, fun _ => rfl⟩

/-! ## Failures -/

/-- If the masses that diffuse both ways are equal, nothing diffuses, whatever the mixtures: the flow is carried by its net
mass. -/
theorem c70_blind {l0 l1 : ℝ} {n : ℕ} {w : ℕ → ℝ} {area : ℝ} {f0 f1 : Mix} {bulk : ℝ} {d : Diffused}
    (hd : diffusion n w area f0 f1 bulk l0 l1 = some d) (hw : ∑ i ∈ range n, w i * f0.x i = ∑ i ∈ range n, w i * f1.x i) (i : ℕ) :
    (transported d).1 i = 0 ∧ (transported d).2 i = 0 := by
  have hl : dblEps < l0 + l1 := by
    by_contra c
    have e : diffusion n w area f0 f1 bulk l0 l1 = none := if_pos (not_lt.mp c)
    rw [e] at hd; cases hd
  rw [diffusion_eq hl] at hd
  obtain ⟨q, hq⟩ : ∃ q, q = ratio area bulk f0.mw f1.mw (twoWay n (flux l0 l1 f0 f1)) := ⟨_, rfl⟩
  have hS : ∑ i ∈ range n, flux l0 l1 f0 f1 i * w i * q = 0 := by
    have : ∀ i ∈ range n, flux l0 l1 f0 f1 i * w i * q =
        diffusivity l0 l1 f0 f1 * meanMolar l0 l1 f0 f1 * (1 / (l0 + l1)) * q * (w i * f0.x i - w i * f1.x i) := fun i _ => by
      rw [flux_eq]; ring
    rw [Finset.sum_congr rfl this, ← Finset.mul_sum, Finset.sum_sub_distrib, hw, sub_self, mul_zero]
  rw [← hq, hS] at hd
  cases hd
  rw [transported_eq, if_neg]
  · exact ⟨rfl, rfl⟩
  · show ¬ |0 * area| > _
    rw [zero_mul, abs_zero]
    have := eps_pos
    linarith

/-- Nothing limits the flow: whatever a node has of a compound, in a time step a large enough hatch takes more. -/
theorem c70_unlimited {l0 l1 : ℝ} (h0 : 0 < l0) (h1 : 0 < l1) {n : ℕ} {w : ℕ → ℝ} (hw : ∀ i, 0 < w i)
    {f0 f1 : Mix} (t0 : 0 < f0.t) (t1 : 0 < f1.t) (hl : dblEps < l0 + l1) {i : ℕ} (hx : f1.x i < f0.x i)
    (hsum : dblEps ≤ |∑ i ∈ range n, w i * flux l0 l1 f0 f1 i|) (mass : ℝ) {dt : ℝ} (hdt : 0 < dt) :
    ∃ area d, 0 < area ∧ diffusion n w area f0 f1 0 l0 l1 = some d ∧ mass < (transported d).2 i * dt := by
  have hD : 0 < diffusivity l0 l1 f0 f1 := by
    unfold diffusivity
    have a : 0 < f0.t / max f0.p fltEps := div_pos t0 (lt_of_lt_of_le flt_pos (le_max_right _ _))
    have b : 0 < f1.t / max f1.p fltEps := div_pos t1 (lt_of_lt_of_le flt_pos (le_max_right _ _))
    have c : 0 < 1 / (l0 + l1) := by positivity
    have d := lb_pos
    have e : 0 < √(3000 * gasConstant * max dblEps (mean l0 l1 f0.t f1.t) / max dblEps (mean l0 l1 f0.mw f1.mw)) := by
      apply Real.sqrt_pos.mpr
      have h1 : 0 < max dblEps (mean l0 l1 f0.t f1.t) := lt_of_lt_of_le eps_pos (le_max_left _ _)
      have h2 : 0 < max dblEps (mean l0 l1 f0.mw f1.mw) := lt_of_lt_of_le eps_pos (le_max_left _ _)
      have h3 : 0 < gasConstant := by unfold gasConstant; norm_num
      positivity
    positivity
  have hj : 0 < flux l0 l1 f0 f1 i := by
    rw [flux_eq]
    have := molar_pos l0 l1 f0 f1
    have : 0 < f0.x i - f1.x i := by linarith
    have : 0 < l0 + l1 := by linarith
    positivity
  obtain ⟨S, hS⟩ : ∃ S, S = ∑ i ∈ range n, w i * flux l0 l1 f0 f1 i := ⟨_, rfl⟩
  rw [← hS] at hsum
  have he := eps_pos
  have hS0 : S ≠ 0 := fun c => by rw [c, abs_zero] at hsum; exact absurd hsum (not_le.mpr eps_pos)
  have hS1 : 0 < |S| := abs_pos.mpr hS0
  have hk : 0 < flux l0 l1 f0 f1 i * w i * dt := mul_pos (mul_pos hj (hw i)) hdt
  obtain ⟨area, ha1, ha2⟩ : ∃ area : ℝ, mass / (flux l0 l1 f0 f1 i * w i * dt) < area ∧ 101 < area :=
    ⟨max (mass / (flux l0 l1 f0 f1 i * w i * dt)) 101 + 1, by linarith [le_max_left (mass / (flux l0 l1 f0 f1 i * w i * dt)) 101],
      by linarith [le_max_right (mass / (flux l0 l1 f0 f1 i * w i * dt)) 101]⟩
  have hq : ∀ s, ratio area 0 f0.mw f1.mw s = 1 := fun s => ratio_zero _ _ _ s
  refine ⟨area, _, by linarith, diffusion_eq hl n w area f0 f1 0, ?_⟩
  simp only [hq, mul_one]
  have e : ∑ i ∈ range n, flux l0 l1 f0 f1 i * w i = S := by
    rw [hS]; exact Finset.sum_congr rfl (fun i _ => mul_comm _ _)
  rw [e, transported_eq, if_pos, innerLimit_of_abs_ge hsum]
  · show mass < S * area * (flux l0 l1 f0 f1 i * w i / S) * dt
    have : S * area * (flux l0 l1 f0 f1 i * w i / S) * dt = area * (flux l0 l1 f0 f1 i * w i * dt) := by field_simp
    rw [this, ← div_lt_iff₀ hk]
    exact ha1
  · show |S * area| > _
    rw [abs_mul, abs_of_pos (by linarith : 0 < area)]
    have : 101 * dblEps ≤ area * |S| := mul_le_mul ha2.le hsum he.le (by linarith)
    linarith

/-- The heat that goes with the gas is conserved: what leaves one node comes to the other, and it is the sum of what the
compounds that go carry. -/
theorem c70_heat_conserved (n : ℕ) (h : ℕ → ℝ → ℝ) (d : Diffused) :
    (transportedHeat n h d).1 + (transportedHeat n h d).2 = 0 ∧
    (transportedHeat n h d).2 = ∑ i ∈ range n, (transported d).2 i * h i d.t := by
  have e : ∑ i ∈ range n, d.net * d.fraction i * h i d.t = d.net * ∑ i ∈ range n, d.fraction i * h i d.t := by
    rw [Finset.mul_sum]
    exact Finset.sum_congr rfl (fun i _ => mul_assoc _ _ _)
  unfold transportedHeat transported
  by_cases h1 : d.net > 100 * dblEps
  · simp only [if_pos h1]
    exact ⟨by ring, e.symm⟩
  · by_cases h2 : d.net < -(100 * dblEps)
    · simp only [if_neg h1, if_pos h2]
      exact ⟨by ring, e.symm⟩
    · simp only [if_neg h1, if_neg h2]
      exact ⟨by ring, by simp⟩

/-- The fluid that diffuses out of a node has the temperature of the other one. So with equal specific heats a colder node that
loses mass gets colder still: the quotient is its temperature after the loss. -/
theorem c70_colder {l0 l1 : ℝ} {n : ℕ} {w : ℕ → ℝ} {area : ℝ} {f0 f1 : Mix} {bulk : ℝ} {d : Diffused} {cp : ℝ} (hcp : 0 < cp)
    (hd : diffusion n w area f0 f1 bulk l0 l1 = some d) (ha : area ≠ 0) (hnet : 100 * dblEps < d.net)
    (hsum : dblEps ≤ |d.net / area|) (ht : f0.t < f1.t) {mass dt : ℝ} (hdt : 0 < dt) (hm : d.net * dt < mass) :
    (mass * cp * f0.t + (transportedHeat n (fun _ t => cp * t) d).1 * dt) / ((mass - d.net * dt) * cp) < f0.t ∧
    ∑ i ∈ range n, (transported d).1 i = -d.net := by
  have hl : dblEps < l0 + l1 := by
    by_contra c
    have e : diffusion n w area f0 f1 bulk l0 l1 = none := if_pos (not_lt.mp c)
    rw [e] at hd; cases hd
  rw [diffusion_eq hl] at hd
  obtain ⟨S, hS⟩ : ∃ S, S = ∑ i ∈ range n, flux l0 l1 f0 f1 i * w i * ratio area bulk f0.mw f1.mw (twoWay n (flux l0 l1 f0 f1)) := ⟨_, rfl⟩
  rw [← hS] at hd
  have he := eps_pos
  have hsum' : dblEps ≤ |S| := by
    cases hd
    have : S * area / area = S := by field_simp
    rw [this] at hsum; exact hsum
  have hS0 : S ≠ 0 := fun c => by rw [c, abs_zero] at hsum'; exact absurd hsum' (not_le.mpr eps_pos)
  have hpos : 0 < d.net := by linarith
  have hT : d.t = f1.t := by
    cases hd
    exact if_pos hpos
  have hfr : ∑ i ∈ range n, d.fraction i = 1 := by
    cases hd
    show ∑ i ∈ range n, _ / innerLimit dblEps S = 1
    rw [← Finset.sum_div, ← hS, innerLimit_of_abs_ge hsum', div_self hS0]
  constructor
  · have e : (transportedHeat n (fun _ t => cp * t) d).1 = -d.net * (∑ i ∈ range n, d.fraction i * (cp * d.t)) := by
      unfold transportedHeat
      rw [if_pos hnet]
    have hpos2 : 0 < (mass - d.net * dt) * cp := mul_pos (by linarith) hcp
    rw [e, ← Finset.sum_mul, hfr, hT, one_mul, div_lt_iff₀ hpos2]
    have : 0 < d.net * dt * cp * (f1.t - f0.t) := mul_pos (mul_pos (mul_pos hpos hdt) hcp) (by linarith)
    linarith
  · have e : (transported d).1 = fun i => -d.net * d.fraction i := by
      unfold transported
      rw [if_pos hnet]
    rw [e, ← Finset.mul_sum, hfr, mul_one]

/-- Lengths of which one is negative are accepted, and then gas can diffuse from the lower to the higher mole fraction. -/
theorem c70_negative_length : ∃ (f0 f1 : Mix) (d : Diffused), valid (-1) 2 = true ∧ f0.x 0 = 1 ∧ f1.x 0 = 0 ∧
    |f0.p - f1.p| < 0.01 ∧ 0 < f0.t ∧ f0.t = f1.t ∧ 0 < f0.p ∧ 0 < f1.p ∧
    diffusion 2 (fun i => if i = 0 then 32 else 28) 1 f0 f1 0 (-1) 2 = some d ∧ (transported d).2 0 < 0 := by
  obtain ⟨f0, hf0⟩ : ∃ f : Mix, f = ⟨300, 1 / 1000, 28, 28, fun i => if i = 0 then 1 else 0, 1⟩ := ⟨_, rfl⟩
  obtain ⟨f1, hf1⟩ : ∃ f : Mix, f = ⟨300, 9 / 1000, 28, 28, fun i => if i = 0 then 0 else 1, 1⟩ := ⟨_, rfl⟩
  have he : (dblEps : ℝ) < 1 / 1000000 := by unfold dblEps; norm_num
  have hfl : (fltEps : ℝ) < 1 / 1000000 := by unfold fltEps; norm_num
  have hl : dblEps < (-1 : ℝ) + 2 := by linarith
  have hm : ∀ a : ℝ, mean (-1) 2 a a = a := fun a => by unfold mean; norm_num; ring
  have hv : (1 : ℝ) ≤ √(3000 * gasConstant * 300 / 28) := by
    rw [Real.one_le_sqrt]; unfold gasConstant; norm_num
  have hD : diffusivity (-1) 2 f0 f1 ≤ -(1 / 1000) := by
    unfold diffusivity
    rw [hf0, hf1]
    simp only [hm]
    rw [max_eq_left (by linarith : (fltEps : ℝ) ≤ 1 / 1000), max_eq_left (by linarith : (fltEps : ℝ) ≤ 9 / 1000),
      max_eq_right (by linarith : (dblEps : ℝ) ≤ 300), max_eq_right (by linarith : (dblEps : ℝ) ≤ 28)]
    have k : lambdaBase * (300 / (1 / 1000) * -1 + 300 / (9 / 1000) * 2) * (1 / (-1 + 2)) ≤ -(3 / 1000) := by
      unfold lambdaBase; norm_num
    obtain ⟨v, hv'⟩ : ∃ v, v = √(3000 * gasConstant * 300 / 28) := ⟨_, rfl⟩
    obtain ⟨l, hl'⟩ : ∃ l, l = lambdaBase * (300 / (1 / 1000) * -1 + 300 / (9 / 1000) * 2) * (1 / (-1 + 2)) := ⟨_, rfl⟩
    rw [← hv'] at hv ⊢
    rw [← hl'] at k ⊢
    have : 0 ≤ (-l) * (v - 1) := mul_nonneg (by linarith) (by linarith)
    linarith
  have hn : meanMolar (-1) 2 f0 f1 = 1 := by
    unfold meanMolar
    rw [hf0, hf1]
    simp only [hm]
    rw [max_eq_right (by linarith : (dblEps : ℝ) ≤ 28)]
    norm_num
    linarith
  obtain ⟨D, hD'⟩ : ∃ D, D = diffusivity (-1) 2 f0 f1 := ⟨_, rfl⟩
  rw [← hD'] at hD
  have hfx : ∀ i, flux (-1) 2 f0 f1 i = D * (if i = 0 then 1 else -1) := by
    intro i
    rw [flux_eq, hn, ← hD', hf0, hf1]
    by_cases h : i = 0
    · simp only [if_pos h]; norm_num
    · simp only [if_neg h]; norm_num
  refine ⟨f0, f1, _, ?_, by rw [hf0]; rfl, by rw [hf1]; rfl, by rw [hf0, hf1]; norm_num [abs_lt], by rw [hf0]; norm_num,
    by rw [hf0, hf1], by rw [hf0]; norm_num, by rw [hf1]; norm_num, diffusion_eq hl 2 _ 1 f0 f1 0, ?_⟩
  · unfold valid
    rw [if_neg]
    linarith
  · simp only [ratio_zero, mul_one]
    have e : ∑ i ∈ range 2, flux (-1) 2 f0 f1 i * (if i = 0 then 32 else 28) = 4 * D := by
      rw [Finset.sum_range_succ, Finset.sum_range_one, hfx, hfx]
      norm_num
      ring
    have hab : |4 * D| = -(4 * D) := abs_of_neg (by linarith)
    have hD0 : D ≠ 0 := by linarith
    rw [e, transported_eq, if_pos (show |4 * D| > 100 * dblEps by rw [hab]; show 100 * dblEps < -(4 * D); linarith),
      innerLimit_of_abs_ge (by rw [hab]; linarith)]
    show 4 * D * (flux (-1) 2 f0 f1 0 * (if 0 = 0 then 32 else 28) / (4 * D)) < 0
    rw [hfx, if_pos rfl, if_pos rfl]
    have : 4 * D * (D * 1 * 32 / (4 * D)) = 32 * D := by field_simp
    rw [this]
    linarith

/-! ## Examples -/

/-- Nitrogen, oxygen and water vapour; two mixtures with all mole fractions different and the same mean weight, between which
nothing diffuses by c70_blind. -/
example : let w : ℕ → ℝ := fun i => if i = 0 then 28.0134 else if i = 1 then 31.9988 else 18.01528
    let x0 : ℕ → ℝ := fun i => if i = 0 then 0.6398352 else if i = 1 then 0.2000188 else 0.160146
    let x1 : ℕ → ℝ := fun i => if i = 0 then 0.5 else if i = 1 then 0.3 else 0.2
    ∑ i ∈ range 3, x0 i = 1 ∧ ∑ i ∈ range 3, x1 i = 1 ∧
    ∑ i ∈ range 3, w i * x0 i = ∑ i ∈ range 3, w i * x1 i := by
  intro w x0 x1
  refine ⟨?_, ?_, ?_⟩ <;> simp only [Finset.sum_range_succ, Finset.sum_range_zero, w, x0, x1] <;> norm_num

/-- Oxygen on one side, nitrogen on the other. -/
private noncomputable def oxygen : Mix := ⟨300, 100, 1.3, 32, fun i => if i = 0 then 1 else 0, 1 / 40⟩

private noncomputable def nitrogen : Mix := ⟨300, 100, 1.3, 32, fun i => if i = 0 then 0 else 1, 1 / 40⟩

example : oxygen.t = 300 ∧ nitrogen.t = 300 ∧ oxygen.p = 100 ∧ nitrogen.p = 100 ∧ oxygen.mw = 32 ∧ nitrogen.mw = 32 ∧
    oxygen.density = 1.3 ∧ nitrogen.density = 1.3 ∧ (dblEps : ℝ) ≤ 300 ∧ (fltEps : ℝ) ≤ 100 ∧ (dblEps : ℝ) ≤ 32 ∧
    (dblEps : ℝ) ≤ 1.3 / 32 := by
  refine ⟨rfl, rfl, rfl, rfl, rfl, rfl, rfl, rfl, ?_, ?_, ?_, ?_⟩ <;> first | (unfold dblEps; norm_num) | (unfold fltEps; norm_num)

/-- Their diffusion is more than the limits: the sums of the theorems are about 4e-5 kg/s/m². -/
example : 100 * (dblEps : ℝ) < |∑ i ∈ range 2, (if i = 0 then 32 else 28) * flux 1 1 oxygen nitrogen i| := by
  have hf := fun i => c70_kinetic (l0 := 1) (l1 := 1) (f0 := oxygen) (f1 := nitrogen) (T := 300) (P := 100) (M := 32) (rho := 1.3)
    (by norm_num) (by unfold dblEps; norm_num) (by unfold fltEps; norm_num) (by unfold dblEps; norm_num) (by unfold dblEps; norm_num)
    rfl rfl rfl rfl rfl rfl rfl rfl i
  have hv : (1 : ℝ) ≤ √(3 * 8.314472 * 300 / (32 / 1000)) := by
    rw [Real.one_le_sqrt]; norm_num
  rw [Finset.sum_range_succ, Finset.sum_range_one, hf, hf]
  obtain ⟨v, hv'⟩ : ∃ v, v = √(3 * 8.314472 * 300 / (32 / 1000)) := ⟨_, rfl⟩
  rw [← hv'] at hv ⊢
  have e0 : oxygen.x 0 - nitrogen.x 0 = 1 := by show (if (0 : ℕ) = 0 then (1 : ℝ) else 0) - (if (0 : ℕ) = 0 then 0 else 1) = 1; norm_num
  have e1 : oxygen.x 1 - nitrogen.x 1 = -1 := by show (if (1 : ℕ) = 0 then (1 : ℝ) else 0) - (if (1 : ℕ) = 0 then 0 else 1) = -1; norm_num
  rw [e0, e1]
  unfold dblEps
  apply lt_of_lt_of_le _ (le_abs_self _)
  norm_num
  linarith

end Gunns.Props
