import Verif.Fluid.FlowControl
import Verif.Props.Conductivity

/-!
# Properties of flow controllers
-/

namespace Gunns.Props

open Gunns.FlowCtl
open Gunns.FluidValve (Fl predictConductivity computeAdmittance)
open Gunns.Interp (limitRange)

set_option linter.unusedSectionVars false

variable {K : Type*} [Field K] [LinearOrder K] [IsStrictOrderedRing K]

/-- What a basic controller is to pass. -/
private def demand (b : Basic K) : K := |b.malf.getD b.command|

private theorem effective_mem (b : Basic K) (p0 p1 : K) (h : 0 ≤ b.maxG) :
    0 ≤ b.effective p0 p1 ∧ b.effective p0 p1 ≤ b.maxG := by
  have hd : (0 : K) < max dblEps |p0 - p1| := lt_of_lt_of_le dblEps_pos (le_max_left _ _)
  unfold Basic.effective
  split_ifs
  · exact ⟨le_refl _, h⟩
  · exact ⟨le_min h (div_nonneg (abs_nonneg _) hd.le), min_le_left _ _⟩

private theorem conductance_eq (b : Basic K) (p0 p1 : K) (h : 0 ≤ b.maxG) (hl : b.maxG ≤ 10 ^ 15)
    (hb : b.block = none) : b.conductance p0 p1 = b.effective p0 p1 := by
  have := effective_mem b p0 p1 h
  unfold Basic.conductance limitRange
  rw [hb]
  simp only
  rw [min_eq_left (le_trans this.2 hl), max_eq_left this.1]

/-- At the potentials of the step a controller passes what it is told to, or what it passes fully open if that is less; always
towards the lower potential, and backwards only if it may. -/
theorem c85_flux (b : Basic K) (p0 p1 : K) (h : 0 ≤ b.maxG) (hl : b.maxG ≤ 10 ^ 15) (hb : b.block = none)
    (hd : dblEps ≤ |p0 - p1|) (hbig : max p0 p1 * (100 * dblEps) ≤ |p0 - p1|) :
    (p1 ≤ p0 → flux (b.conductance p0 p1) p0 p1 = min (demand b) (b.maxG * (p0 - p1)))
    ∧ (p0 < p1 → b.reverse = true → flux (b.conductance p0 p1) p0 p1 = -min (demand b) (b.maxG * (p1 - p0)))
    ∧ (p0 < p1 → b.reverse = false → flux (b.conductance p0 p1) p0 p1 = 0) := by
  have e := dblEps_pos (K := K)
  rw [conductance_eq b p0 p1 h hl hb]
  have hf : flux (b.effective p0 p1) p0 p1 = (p0 - p1) * b.effective p0 p1 := by
    unfold flux
    rw [if_neg (not_lt.mpr hbig)]
  rw [hf]
  unfold Basic.effective
  rw [max_eq_right hd]
  refine ⟨fun hp => ?_, fun hp hr => ?_, fun hp hr => ?_⟩
  · have hab : |p0 - p1| = p0 - p1 := abs_of_nonneg (by linarith)
    rw [hab] at hd ⊢
    have hpos : 0 < p0 - p1 := lt_of_lt_of_le e hd
    rw [if_neg (fun hh => absurd hh.1 (not_lt.mpr hp)), mul_min_of_nonneg _ _ hpos.le,
      mul_div_cancel₀ _ (ne_of_gt hpos), min_comm, mul_comm (p0 - p1)]
    rfl
  · have hab : |p0 - p1| = p1 - p0 := by rw [abs_sub_comm]; exact abs_of_nonneg (by linarith)
    rw [hab] at hd ⊢
    have hpos : 0 < p1 - p0 := lt_of_lt_of_le e hd
    rw [if_neg (fun hh => by simp [hr] at hh)]
    have : (p0 - p1) * min b.maxG (|b.malf.getD b.command| / (p1 - p0))
        = -((p1 - p0) * min b.maxG (|b.malf.getD b.command| / (p1 - p0))) := by ring
    rw [this, mul_min_of_nonneg _ _ hpos.le, mul_div_cancel₀ _ (ne_of_gt hpos), min_comm, mul_comm (p1 - p0)]
    rfl
  · rw [if_pos ⟨hp, hr⟩, mul_zero]

/-- A blocked controller passes the rest of it. -/
theorem c85_blocked (b : Basic K) (v p0 p1 : K) (h : 0 ≤ b.maxG) (hl : b.maxG ≤ 10 ^ 15) (hb : b.block = some v)
    (h0 : 0 ≤ v) (h1 : v ≤ 1) :
    b.conductance p0 p1 = ({ b with block := none } : Basic K).conductance p0 p1 * (1 - v) := by
  rw [conductance_eq ({ b with block := none } : Basic K) p0 p1 h hl rfl]
  have he : ({ b with block := none } : Basic K).effective p0 p1 = b.effective p0 p1 := rfl
  rw [he]
  have := effective_mem b p0 p1 h
  unfold Basic.conductance limitRange
  rw [hb]
  simp only
  have h2 : b.effective p0 p1 * (1 - v) ≤ b.effective p0 p1 * 1 :=
    mul_le_mul_of_nonneg_left (by linarith) this.1
  rw [min_eq_left (by linarith), max_eq_left (mul_nonneg this.1 (by linarith))]

/-- A controller from a source of potential `V` through the conductance `Gs` to ground, pass after pass: each solution has the
conductance that the controller chose for the potential before. -/
private structure Circuit (b : Basic K) (V Gs : K) (p : ℕ → K) : Prop where
  gs : 0 < Gs
  v : 0 < V
  g0 : 0 ≤ b.maxG
  gl : b.maxG ≤ 10 ^ 15
  nb : b.block = none
  start : dblEps ≤ p 0
  kirchhoff : ∀ n, Gs * (V - p (n + 1)) = b.conductance (p n) 0 * p (n + 1)

private theorem choice {b : Basic K} {V Gs : K} {p : ℕ → K} (c : Circuit b V Gs p) (x : K) (hx : dblEps ≤ x) :
    b.conductance x 0 = min b.maxG (demand b / x) := by
  have e := dblEps_pos (K := K)
  rw [conductance_eq b x 0 c.g0 c.gl c.nb]
  unfold Basic.effective
  have hx0 : 0 < x := lt_of_lt_of_le e hx
  rw [if_neg (fun hh => absurd hh.1 (not_lt.mpr hx0.le)), sub_zero, abs_of_pos hx0, max_eq_right hx]
  rfl

private theorem potential {b : Basic K} {V Gs : K} {p : ℕ → K} (c : Circuit b V Gs p) (pm : K)
    (hpm : Gs * (V - pm) = b.maxG * pm) (hm : dblEps ≤ pm) :
    ∀ n, dblEps ≤ p n ∧ (0 ≤ b.conductance (p n) 0 ∧ b.conductance (p n) 0 ≤ b.maxG)
      ∧ pm ≤ p (n + 1) ∧ p (n + 1) ≤ V ∧ p (n + 1) * (Gs + b.conductance (p n) 0) = V * Gs := by
  intro n
  have e := dblEps_pos (K := K)
  have hg := c.gs
  have hv := c.v
  have hc : 0 ≤ b.conductance (p n) 0 ∧ b.conductance (p n) 0 ≤ b.maxG := by
    rw [conductance_eq b _ _ c.g0 c.gl c.nb]
    exact effective_mem b _ _ c.g0
  have k := c.kirchhoff n
  have kk : p (n + 1) * (Gs + b.conductance (p n) 0) = V * Gs := by linear_combination -k
  have kp : 0 < p (n + 1) := by
    by_contra hneg
    push Not at hneg
    have : p (n + 1) * (Gs + b.conductance (p n) 0) ≤ 0 :=
      mul_nonpos_of_nonpos_of_nonneg hneg (by linarith [hc.1])
    have : 0 < V * Gs := mul_pos hv hg
    linarith
  have k1 : p (n + 1) ≤ V := by
    by_contra hgt
    push Not at hgt
    have h1 : Gs * (V - p (n + 1)) < 0 := mul_neg_of_pos_of_neg hg (by linarith)
    have h2 : 0 ≤ b.conductance (p n) 0 * p (n + 1) := mul_nonneg hc.1 kp.le
    linarith
  have k2 : pm ≤ p (n + 1) := by
    by_contra hlt
    push Not at hlt
    have h1 : p (n + 1) * (Gs + b.conductance (p n) 0) ≤ p (n + 1) * (Gs + b.maxG) :=
      mul_le_mul_of_nonneg_left (by linarith [hc.2]) kp.le
    have h2 : p (n + 1) * (Gs + b.maxG) < pm * (Gs + b.maxG) :=
      mul_lt_mul_of_pos_right hlt (by linarith [c.g0])
    have h3 : pm * (Gs + b.maxG) = V * Gs := by linear_combination -hpm
    linarith
  refine ⟨?_, hc, k2, k1, kk⟩
  cases n with
  | zero => exact c.start
  | succ m =>
    -- the same argument one pass before
    have k' := c.kirchhoff m
    have hc' : 0 ≤ b.conductance (p m) 0 ∧ b.conductance (p m) 0 ≤ b.maxG := by
      rw [conductance_eq b _ _ c.g0 c.gl c.nb]
      exact effective_mem b _ _ c.g0
    have kk' : p (m + 1) * (Gs + b.conductance (p m) 0) = V * Gs := by linear_combination -k'
    by_contra hlt
    push Not at hlt
    have h3 : pm * (Gs + b.maxG) = V * Gs := by linear_combination -hpm
    have hvg : 0 < V * Gs := mul_pos hv hg
    have kp' : 0 < p (m + 1) := by
      by_contra hneg
      push Not at hneg
      have : p (m + 1) * (Gs + b.conductance (p m) 0) ≤ 0 :=
        mul_nonpos_of_nonpos_of_nonneg hneg (by linarith [hc'.1])
      linarith
    have h1 : p (m + 1) * (Gs + b.conductance (p m) 0) ≤ p (m + 1) * (Gs + b.maxG) :=
      mul_le_mul_of_nonneg_left (by linarith [hc'.2]) kp'.le
    have h2 : p (m + 1) * (Gs + b.maxG) < pm * (Gs + b.maxG) :=
      mul_lt_mul_of_pos_right (by linarith) (by linarith [c.g0])
    linarith

/-- Behind a source that can give more than is asked for, with a controller that is big enough, the flow settles at the
command: the error shrinks in each pass by the command over the short circuit flow of the source. -/
theorem c85_settles (b : Basic K) (V Gs : K) (p : ℕ → K) (c : Circuit b V Gs p) (pm : K)
    (hpm : Gs * (V - pm) = b.maxG * pm) (hm : dblEps ≤ pm) (hcmd : demand b < V * Gs)
    (hopen : demand b ≤ b.maxG * pm) (n : ℕ) :
    |b.conductance (p n) 0 * p (n + 1) - demand b| ≤ V * b.maxG * (demand b / (V * Gs)) ^ n := by
  have hg := c.gs
  have hv := c.v
  have hvg : 0 < V * Gs := mul_pos hv hg
  have hf : 0 ≤ demand b := abs_nonneg _
  obtain ⟨f, hfd⟩ : ∃ f, f = demand b := ⟨_, rfl⟩
  rw [← hfd] at hcmd hopen hf ⊢
  obtain ⟨r, hr⟩ : ∃ r, r = f / (V * Gs) := ⟨_, rfl⟩
  have hr0 : 0 ≤ r := by rw [hr]; exact div_nonneg hf hvg.le
  have hden : 0 < V * Gs - f := by linarith
  -- the conductance of the settled flow
  obtain ⟨g, hgd⟩ : ∃ g, g = f * Gs / (V * Gs - f) := ⟨_, rfl⟩
  have hg0 : 0 ≤ g := by rw [hgd]; exact div_nonneg (mul_nonneg hf hg.le) hden.le
  have hgeq : g * (V * Gs - f) = f * Gs := by rw [hgd]; exact div_mul_cancel₀ _ (ne_of_gt hden)
  have hgmax : g ≤ b.maxG := by
    have h3 : pm * (Gs + b.maxG) = V * Gs := by linear_combination -hpm
    have h4 : 0 < Gs + b.maxG := by linarith [c.g0]
    have h5 : f * (Gs + b.maxG) ≤ b.maxG * (V * Gs) := by
      calc f * (Gs + b.maxG) ≤ b.maxG * pm * (Gs + b.maxG) := mul_le_mul_of_nonneg_right hopen h4.le
        _ = b.maxG * (V * Gs) := by rw [← h3]; ring
    rw [hgd, div_le_iff₀ hden]
    linear_combination h5
  have hfix : r * (Gs + g) = g := by
    rw [hr, div_mul_eq_mul_div, div_eq_iff (ne_of_gt hvg)]
    linear_combination -hgeq
  -- the error of the conductance
  have err : ∀ m, |b.conductance (p m) 0 - g| ≤ b.maxG * r ^ m := by
    intro m
    induction m with
    | zero =>
      have := (potential c pm hpm hm 0).2.1
      rw [pow_zero, mul_one, abs_le]
      constructor <;> linarith
    | succ m ih =>
      obtain ⟨_, _, _, _, hk⟩ := potential c pm hpm hm m
      obtain ⟨hp1, _⟩ := potential c pm hpm hm (m + 1)
      have hp0 : 0 < p (m + 1) := lt_of_lt_of_le dblEps_pos hp1
      rw [choice c _ hp1, ← hfd]
      have hq : f / p (m + 1) = r * (Gs + b.conductance (p m) 0) := by
        rw [div_eq_iff (ne_of_gt hp0), hr]
        have : f / (V * Gs) * (Gs + b.conductance (p m) 0) * p (m + 1)
            = f / (V * Gs) * (p (m + 1) * (Gs + b.conductance (p m) 0)) := by ring
        rw [this, hk]
        field_simp
      rw [hq]
      have hdist : |min b.maxG (r * (Gs + b.conductance (p m) 0)) - g|
          ≤ |r * (Gs + b.conductance (p m) 0) - g| := by
        rcases le_total (r * (Gs + b.conductance (p m) 0)) b.maxG with hle | hle
        · rw [min_eq_right hle]
        · rw [min_eq_left hle, abs_of_nonneg (by linarith), abs_of_nonneg (by linarith)]
          linarith
      have heq : r * (Gs + b.conductance (p m) 0) - g = r * (b.conductance (p m) 0 - g) := by
        linear_combination hfix
      rw [heq, abs_mul, abs_of_nonneg hr0] at hdist
      calc _ ≤ r * |b.conductance (p m) 0 - g| := hdist
        _ ≤ r * (b.maxG * r ^ m) := mul_le_mul_of_nonneg_left ih hr0
        _ = b.maxG * r ^ (m + 1) := by ring
  obtain ⟨_, hc, _, hpv, hk⟩ := potential c pm hpm hm n
  obtain ⟨hp1, _⟩ := potential c pm hpm hm (n + 1)
  have hp0 : 0 < p (n + 1) := lt_of_lt_of_le dblEps_pos hp1
  -- the error of the flow
  have hflow : (b.conductance (p n) 0 * p (n + 1) - f) * (V * Gs)
      = p (n + 1) * (V * Gs - f) * (b.conductance (p n) 0 - g) := by
    linear_combination p (n + 1) * hgeq + f * hk
  have habs : |b.conductance (p n) 0 * p (n + 1) - f| * (V * Gs)
      = p (n + 1) * (V * Gs - f) * |b.conductance (p n) 0 - g| := by
    have := congrArg abs hflow
    rw [abs_mul _ (V * Gs), abs_mul _ (b.conductance (p n) 0 - g), abs_of_pos hvg, abs_of_pos (mul_pos hp0 hden)] at this
    exact this
  have hbound : p (n + 1) * (V * Gs - f) ≤ V * (V * Gs) :=
    mul_le_mul hpv (by linarith) hden.le hv.le
  have : |b.conductance (p n) 0 * p (n + 1) - f| * (V * Gs) ≤ V * (b.maxG * r ^ n) * (V * Gs) := by
    rw [habs]
    calc _ ≤ V * (V * Gs) * |b.conductance (p n) 0 - g| := mul_le_mul_of_nonneg_right hbound (abs_nonneg _)
      _ ≤ V * (V * Gs) * (b.maxG * r ^ n) := mul_le_mul_of_nonneg_left (err n) (mul_pos hv hvg).le
      _ = _ := by ring
  have := le_of_mul_le_mul_right this hvg
  rw [← hr]
  linarith [this, mul_assoc V b.maxG (r ^ n)]

/-- Asked for more than it passes fully open, the controller is fully open after a number of passes and stays so. -/
theorem c85_opens (b : Basic K) (V Gs : K) (p : ℕ → K) (c : Circuit b V Gs p) (pm : K)
    (hpm : Gs * (V - pm) = b.maxG * pm) (hm : dblEps ≤ pm) (hcmd : b.maxG * pm < demand b) (n : ℕ)
    (hn : b.maxG ≤ n * ((demand b - b.maxG * pm) / V)) : b.conductance (p n) 0 = b.maxG := by
  have hg := c.gs
  have hv := c.v
  obtain ⟨d, hd⟩ : ∃ d, d = (demand b - b.maxG * pm) / V := ⟨_, rfl⟩
  rw [← hd] at hn
  have hd0 : 0 < d := by rw [hd]; exact div_pos (by linarith) hv
  have low : ∀ m : ℕ, min b.maxG (m * d) ≤ b.conductance (p m) 0 := by
    intro m
    induction m with
    | zero =>
      simp only [Nat.cast_zero, zero_mul]
      exact le_trans (min_le_right _ _) (potential c pm hpm hm 0).2.1.1
    | succ m ih =>
      obtain ⟨_, hc, hpmn, hpv, hk⟩ := potential c pm hpm hm m
      obtain ⟨hp1, _⟩ := potential c pm hpm hm (m + 1)
      have hp0 : 0 < p (m + 1) := lt_of_lt_of_le dblEps_pos hp1
      rw [choice c _ hp1]
      refine le_min (min_le_left _ _) ?_
      -- the flow now is at most the one fully open
      have hfl : b.conductance (p m) 0 * p (m + 1) ≤ b.maxG * pm := by
        have := c.kirchhoff m
        have h2 : Gs * (V - p (m + 1)) ≤ Gs * (V - pm) := mul_le_mul_of_nonneg_left (by linarith) hg.le
        linarith
      have hstep : b.conductance (p m) 0 + d ≤ demand b / p (m + 1) := by
        rw [le_div_iff₀ hp0]
        have hdp : d * p (m + 1) ≤ demand b - b.maxG * pm := by
          calc d * p (m + 1) ≤ d * V := mul_le_mul_of_nonneg_left hpv hd0.le
            _ = demand b - b.maxG * pm := by rw [hd]; field_simp
        linarith [add_mul (b.conductance (p m) 0) d (p (m + 1))]
      rcases le_total b.maxG (m * d) with hle | hle
      · rw [min_eq_left hle] at ih
        exact le_trans (min_le_left _ _) (by linarith)
      · rw [min_eq_right hle] at ih
        refine le_trans (min_le_right _ _) ?_
        push_cast
        linarith [add_mul (m : K) 1 d]
  have := low n
  rw [min_eq_left hn] at this
  exact le_antisymm (potential c pm hpm hm n).2.1.2 this

/-- The gain that a fluid controller uses. -/
private noncomputable def rate (c : Ctl) : ℝ := limitRange 0 c.gain 1

private theorem rate_mem (c : Ctl) : 0 ≤ rate c ∧ rate c ≤ 1 := by
  unfold rate limitRange
  exact ⟨le_max_right _ _, max_le (min_le_right _ _) zero_le_one⟩

private theorem run_keeps (c : Ctl) (q : ℕ → Pass) (n : ℕ) :
    rate (c.run q n) = rate c ∧ ∀ x, (c.run q n).target x = c.target x := by
  induction n with
  | zero => exact ⟨rfl, fun _ => rfl⟩
  | succ n ih => exact ⟨ih.1, fun x => ih.2 x⟩

private theorem run_last (c : Ctl) (q : ℕ → Pass) (n : ℕ) :
    (c.run q (n + 1)).last =
      if (1 - rate c) * (c.run q n).last + rate c * c.target (q n) < dblEps then 0
      else (1 - rate c) * (c.run q n).last + rate c * c.target (q n) := by
  have e : (c.run q n).filtered (q n) = (1 - rate c) * (c.run q n).last + rate c * c.target (q n) := by
    unfold Ctl.filtered
    rw [(run_keeps c q n).2]
    change _ + rate (c.run q n) * _ = _
    rw [(run_keeps c q n).1]
    ring
  change (if (c.run q n).filtered (q n) < dblEps then 0 else (c.run q n).filtered (q n)) = _
  rw [e]

/-- In steady conditions the conductivity goes to the one of the command by the gain, pass after pass. -/
theorem c85_filter (c : Ctl) (q : ℕ → Pass) (T : ℝ) (hT : ∀ n, c.target (q n) = T) (hl : 0 ≤ c.last)
    (hsmall : dblEps ≤ rate c * T) (n : ℕ) :
    (c.run q n).last = T + (1 - rate c) ^ n * (c.last - T) := by
  obtain ⟨hr0, hr1⟩ := rate_mem c
  have e := dblEps_pos (K := ℝ)
  have key : 0 ≤ (c.run q n).last ∧ (c.run q n).last = T + (1 - rate c) ^ n * (c.last - T) := by
    induction n with
    | zero => exact ⟨hl, by simp [Ctl.run]⟩
    | succ n ih =>
      have hge : dblEps ≤ (1 - rate c) * (c.run q n).last + rate c * c.target (q n) := by
        rw [hT]
        have := mul_nonneg (sub_nonneg.mpr hr1) ih.1
        linarith
      rw [run_last, if_neg (not_lt.mpr hge)]
      refine ⟨by linarith, ?_⟩
      rw [hT, ih.2]
      ring
  exact key.2

/-- Settled and not fully open, it passes the command: the conductance times the pressure drop and the mean weight. -/
theorem c85_settled (c : Ctl) (q : Pass) (hfwd : q.p1 ≤ q.p0 ∨ c.reverse = true) (hp : dblEps < |q.f0.p - q.f1.p|)
    (hr : dblEps < c64rho q.f0 q.f1) (h0 : dblEps < q.f0.mw) (h1 : dblEps < q.f1.mw) :
    (predictConductivity (c.malf.getD c.command) c.minLin q.f0 q.f1 (1 / 2) ≤ c.maxG →
      computeAdmittance (c.target q) c.minLin q.f0 q.f1 (1 / 2) * max c.minLin |q.f0.p - q.f1.p| *
        c64weight q.f0 q.f1 = |c.malf.getD c.command|)
    ∧ c.target q ≤ c.maxG := by
  have ht : c.target q = min c.maxG (predictConductivity (c.malf.getD c.command) c.minLin q.f0 q.f1 (1 / 2)) := by
    unfold Ctl.target
    rw [if_neg]
    rintro ⟨a, b⟩
    rcases hfwd with h | h
    · exact absurd a (not_lt.mpr h)
    · simp [h] at b
  rw [ht]
  refine ⟨fun hle => ?_, min_le_left _ _⟩
  rw [min_eq_right hle]
  exact c64_round_trip _ _ _ _ _ hp hr h0 h1

/-- Failure: with the default gain, zero, the controller never moves: it stays fully open whatever it is told. -/
theorem c85_no_gain (c : Ctl) (q : ℕ → Pass) (hg : c.gain = 0) (hm : dblEps ≤ c.maxG) (n : ℕ) :
    (c.start.run q n).last = c.maxG := by
  have hr : rate c.start = 0 := by
    unfold rate limitRange
    change max (min c.gain 1) 0 = 0
    rw [hg]
    simp
  induction n with
  | zero => rfl
  | succ n ih =>
    rw [run_last, hr, ih]
    simp only [sub_zero, one_mul, zero_mul, add_zero]
    rw [if_neg (not_lt.mpr hm)]

/-- Failure: after a restart with zero gain it stays shut. -/
theorem c85_restart (c : Ctl) (q : ℕ → Pass) (hg : c.gain = 0) (n : ℕ) : (c.restart.run q n).last = 0 := by
  have hr : rate c.restart = 0 := by
    unfold rate limitRange
    change max (min c.gain 1) 0 = 0
    rw [hg]
    simp
  induction n with
  | zero => rfl
  | succ n ih =>
    rw [run_last, hr, ih]
    simp

/-- Failure: back-flow is not blocked but fades.  Under a reverse gradient and without reverse control the conductivity goes
down by the gain in each pass until it is below DBL_EPSILON; so long the fluid flows back. -/
theorem c85_back_flow (c : Ctl) (q : ℕ → Pass) (hrev : c.reverse = false) (hq : ∀ n, (q n).p0 < (q n).p1)
    (hl : 0 ≤ c.last) (n : ℕ) :
    (c.run q (n + 1)).last = if dblEps ≤ (1 - rate c) ^ (n + 1) * c.last then (1 - rate c) ^ (n + 1) * c.last else 0 := by
  obtain ⟨hr0, hr1⟩ := rate_mem c
  have e := dblEps_pos (K := ℝ)
  have hT : ∀ k, c.target (q k) = 0 := by
    intro k
    unfold Ctl.target
    rw [if_pos ⟨hq k, hrev⟩]
  have hs : 0 ≤ 1 - rate c := by linarith
  induction n with
  | zero =>
    rw [run_last, hT]
    simp only [Ctl.run, mul_zero, add_zero, zero_add, pow_one]
    by_cases h : dblEps ≤ (1 - rate c) * c.last
    · rw [if_neg (not_lt.mpr h), if_pos h]
    · rw [if_pos (not_le.mp h), if_neg h]
  | succ n ih =>
    rw [run_last, hT, mul_zero, add_zero, ih]
    by_cases h : dblEps ≤ (1 - rate c) ^ (n + 1) * c.last
    · rw [if_pos h]
      have hh : (1 - rate c) * ((1 - rate c) ^ (n + 1) * c.last) = (1 - rate c) ^ (n + 1 + 1) * c.last := by ring
      rw [hh]
      by_cases h2 : dblEps ≤ (1 - rate c) ^ (n + 1 + 1) * c.last
      · rw [if_neg (not_lt.mpr h2), if_pos h2]
      · rw [if_pos (not_le.mp h2), if_neg h2]
    · rw [if_neg h, mul_zero, if_pos e, if_neg]
      have hh : (1 - rate c) ^ (n + 1 + 1) * c.last ≤ (1 - rate c) ^ (n + 1) * c.last := by
        have hx : 0 ≤ (1 - rate c) ^ (n + 1) * c.last := mul_nonneg (pow_nonneg hs _) hl
        have : (1 - rate c) ^ (n + 1 + 1) * c.last = (1 - rate c) * ((1 - rate c) ^ (n + 1) * c.last) := by ring
        rw [this]
        have := mul_le_mul_of_nonneg_right (show 1 - rate c ≤ 1 by linarith) hx
        linarith
      linarith [not_le.mp h]

/-- A controller of one half behind a source of 10 with conductance 1, asked for 2: its conductance at 8 is 1/4, which gives
2; at 10 it is 1/5, which gives 5/3. -/
example :
    let b : Basic ℚ := ⟨1 / 2, 2, none, false, none⟩
    b.conductance 8 0 = 1 / 4 ∧ b.conductance 10 0 = 1 / 5 ∧ flux (1 / 5) 10 (0 : ℚ) = 2
      ∧ b.conductance 0 8 = 0 ∧ ({ b with reverse := true } : Basic ℚ).conductance 0 8 = 1 / 4
      ∧ ({ b with command := 9 } : Basic ℚ).conductance 8 0 = 1 / 2 := by
  decide +kernel

/-- The settled solution is a circuit, whose conditions hold. -/
example : Circuit (⟨1 / 2, 2, none, false, none⟩ : Basic ℚ) 10 1 (fun _ => 8) ∧ (1 : ℚ) * (10 - 20 / 3) = 1 / 2 * (20 / 3)
    ∧ (2 : ℚ) < 10 * 1 ∧ (2 : ℚ) ≤ 1 / 2 * (20 / 3) := by
  refine ⟨⟨by norm_num, by norm_num, by norm_num, by norm_num, rfl, ?_, fun _ => ?_⟩, by norm_num, by norm_num, by norm_num⟩
  · unfold dblEps
    norm_num
  · have : (⟨1 / 2, 2, none, false, none⟩ : Basic ℚ).conductance 8 0 = 1 / 4 := by decide +kernel
    rw [this]
    norm_num

end Gunns.Props
