import Verif.Fluid.Rocket
import Mathlib.Tactic.Linarith
import Mathlib.Tactic.FieldSimp
import Mathlib.Tactic.Ring
import Mathlib.Tactic.Positivity
import Mathlib.Analysis.Calculus.Deriv.MeanValue
import Mathlib.Analysis.SpecialFunctions.Log.Deriv

/-!
# C100: the simple rocket
-/

set_option linter.unusedSectionVars false

namespace Gunns.Props

open Gunns Gunns.Rocket

variable {K : Type*} [Field K] [LinearOrder K] [IsStrictOrderedRing K]

/-! ## The search -/

/-- Half the last move, which is the next one. -/
private def half (s : Search K) : K := 1 / 2 * |s.mach - s.prev|

/-- What the search keeps: the Mach number sought is within two of the next moves, and the search stays at 5/4 or above. -/
private structure Near (root : K) (s : Search K) : Prop where
  near : |s.mach - root| ≤ 2 * half s
  low : 5 / 4 ≤ s.mach
  high : s.mach + 2 * half s ≤ 20
  grid : (s.mach = 10 ∧ half s = 5) ∨ (s.mach = 5 ∧ half s = 5 / 2) ∨ (s.mach = 5 / 2 ∧ half s = 5 / 4) ∨ s.mach = 5 / 4
    ∨ 5 / 4 + 2 * half s ≤ s.mach

private theorem body_near (r : K → K) (area root : K) (hr : ∀ m, 5 / 4 ≤ m → m ≤ 20 → (area < r m ↔ root < m)) (h1 : 5 / 4 ≤ root)
    (s : Search K) (hd : s.done = false) (h : Near root s) :
    Near root (body r area s) ∧ ((body r area s).done = true → half s < tol ∧ (body r area s).mach = s.mach)
      ∧ ((body r area s).done = false → half (body r area s) = half s / 2) := by
  have h0 : 0 ≤ half s := by unfold half; positivity
  obtain ⟨hn, hl, hh, hg⟩ := h
  have hsep := hr s.mach hl (by linarith)
  by_cases ht : half s < tol
  · have e : body r area s = { s with done := true } := by
      unfold body
      rw [if_neg (by rw [hd]; decide)]
      simp only
      exact if_pos ht
    rw [e]
    exact ⟨⟨hn, hl, hh, hg⟩, fun _ => ⟨ht, rfl⟩, fun hc => absurd hc (by simp)⟩
  · by_cases ha : area < r s.mach
    · have e : body r area s = ⟨s.mach, s.mach - half s, false⟩ := by
        unfold body
        rw [if_neg (by rw [hd]; decide)]
        simp only
        exact (if_neg ht).trans (if_pos ha)
      have hm : root < s.mach := hsep.mp ha
      have hhalf : half (⟨s.mach, s.mach - half s, false⟩ : Search K) = half s / 2 := by
        show 1 / 2 * |s.mach - half s - s.mach| = _
        have : s.mach - half s - s.mach = -half s := by ring
        rw [this, abs_neg, abs_of_nonneg h0]; ring
      rw [e]
      refine ⟨⟨?_, ?_, ?_, ?_⟩, fun hc => absurd hc (by simp), fun _ => hhalf⟩
      · rw [hhalf]
        show |s.mach - half s - root| ≤ _
        rw [abs_of_pos (by linarith)] at hn
        rw [abs_le]
        constructor <;> linarith
      · show 5 / 4 ≤ s.mach - half s
        rcases hg with ⟨a, b⟩ | ⟨a, b⟩ | ⟨a, b⟩ | a | a
        · rw [a, b]; norm_num
        · rw [a, b]; norm_num
        · rw [a, b]; norm_num
        · rw [a] at hm; exact absurd h1 (not_le.mpr hm)
        · linarith
      · rw [hhalf]
        show s.mach - half s + 2 * (half s / 2) ≤ 20
        linarith
      · rw [hhalf]
        show (s.mach - half s = 10 ∧ half s / 2 = 5) ∨ (s.mach - half s = 5 ∧ half s / 2 = 5 / 2) ∨ (s.mach - half s = 5 / 2 ∧ half s / 2 = 5 / 4)
          ∨ s.mach - half s = 5 / 4 ∨ 5 / 4 + 2 * (half s / 2) ≤ s.mach - half s
        rcases hg with ⟨a, b⟩ | ⟨a, b⟩ | ⟨a, b⟩ | a | a
        · right; left; rw [a, b]; norm_num
        · right; right; left; rw [a, b]; norm_num
        · right; right; right; left; rw [a, b]; norm_num
        · rw [a] at hm; exact absurd h1 (not_le.mpr hm)
        · right; right; right; right; linarith
    · have e : body r area s = ⟨s.mach, s.mach + half s, false⟩ := by
        unfold body
        rw [if_neg (by rw [hd]; decide)]
        simp only
        exact (if_neg ht).trans (if_neg ha)
      have hm : s.mach ≤ root := not_lt.mp fun hc => ha (hsep.mpr hc)
      have hhalf : half (⟨s.mach, s.mach + half s, false⟩ : Search K) = half s / 2 := by
        show 1 / 2 * |s.mach + half s - s.mach| = _
        have : s.mach + half s - s.mach = half s := by ring
        rw [this, abs_of_nonneg h0]; ring
      rw [e]
      refine ⟨⟨?_, ?_, ?_, ?_⟩, fun hc => absurd hc (by simp), fun _ => hhalf⟩
      · rw [hhalf]
        show |s.mach + half s - root| ≤ _
        rw [abs_of_nonpos (by linarith)] at hn
        rw [abs_le]
        constructor <;> linarith
      · show 5 / 4 ≤ s.mach + half s
        linarith
      · rw [hhalf]
        show s.mach + half s + 2 * (half s / 2) ≤ 20
        linarith
      · rw [hhalf]
        show (s.mach + half s = 10 ∧ half s / 2 = 5) ∨ (s.mach + half s = 5 ∧ half s / 2 = 5 / 2) ∨ (s.mach + half s = 5 / 2 ∧ half s / 2 = 5 / 4)
          ∨ s.mach + half s = 5 / 4 ∨ 5 / 4 + 2 * (half s / 2) ≤ s.mach + half s
        right; right; right; right
        rcases hg with ⟨a, b⟩ | ⟨a, b⟩ | ⟨a, b⟩ | a | a
        · rw [a, b]; norm_num
        · rw [a, b]; norm_num
        · rw [a, b]; norm_num
        · rw [a]; linarith
        · linarith

/-- The search finds the Mach number of an area ratio, to within twice the tolerance, whenever it is between 5/4 and 20 and the ratio is above the given one
beyond it and not before it. -/
theorem c100_search (r : K → K) (area root : K) (hr : ∀ m, 5 / 4 ≤ m → m ≤ 20 → (area < r m ↔ root < m)) (h1 : 5 / 4 ≤ root) (h2 : root ≤ 20) :
    |exitMach r area - root| < 2 * tol := by
  have key : ∀ n, Near root ((body r area)^[n] ⟨20, 10, false⟩)
      ∧ ((((body r area)^[n] ⟨20, 10, false⟩).done = false ∧ half ((body r area)^[n] ⟨20, 10, false⟩) = 5 / 2 ^ n)
        ∨ (((body r area)^[n] ⟨20, 10, false⟩).done = true ∧ |((body r area)^[n] ⟨20, 10, false⟩).mach - root| < 2 * tol)) := by
    intro n
    induction n with
    | zero =>
      have hh : half (⟨20, 10, false⟩ : Search K) = 5 := by
        show 1 / 2 * |(10 : K) - 20| = 5
        have : (10 : K) - 20 = -10 := by norm_num
        rw [this, abs_neg, abs_of_pos (by norm_num)]; norm_num
      refine ⟨⟨?_, ?_, ?_, ?_⟩, Or.inl ⟨rfl, ?_⟩⟩
      · show |(10 : K) - root| ≤ 2 * half (⟨20, 10, false⟩ : Search K)
        rw [hh, abs_le]; constructor <;> linarith
      · show (5 : K) / 4 ≤ 10; norm_num
      · show (10 : K) + 2 * half (⟨20, 10, false⟩ : Search K) ≤ 20
        rw [hh]; norm_num
      · left; exact ⟨rfl, hh⟩
      · show half (⟨20, 10, false⟩ : Search K) = _
        rw [hh]; simp
    | succ n ih =>
      rw [Function.iterate_succ_apply']
      obtain ⟨i1, i2⟩ := ih
      rcases i2 with ⟨d, hv⟩ | ⟨d, hv⟩
      · obtain ⟨b1, b2, b3⟩ := body_near r area root hr h1 _ d i1
        refine ⟨b1, ?_⟩
        cases hd : (body r area ((body r area)^[n] ⟨20, 10, false⟩)).done with
        | false =>
          left
          refine ⟨rfl, ?_⟩
          rw [b3 hd, hv, pow_succ]
          field_simp
        | true =>
          right
          obtain ⟨c1, c2⟩ := b2 hd
          refine ⟨rfl, ?_⟩
          rw [c2]
          exact lt_of_le_of_lt i1.near (by linarith)
      · have e : body r area ((body r area)^[n] ⟨20, 10, false⟩) = (body r area)^[n] ⟨20, 10, false⟩ := by
          exact if_pos d
        rw [e]
        exact ⟨i1, Or.inr ⟨d, hv⟩⟩
  obtain ⟨k1, k2⟩ := key 30
  unfold exitMach
  rcases k2 with ⟨-, hv⟩ | ⟨-, hv⟩
  · refine lt_of_le_of_lt k1.near ?_
    rw [hv]
    unfold tol
    norm_num
  · exact hv

/-- The area ratio of a nozzle grows with the Mach number from one on. -/
theorem c100_ratio (g : ℝ) (hg : 1 < g) : StrictMonoOn (ratio g) (Set.Ici 1) ∧ ratio g 1 = 1 := by
  have hgm : 0 < g - 1 := by linarith
  have hgp : 0 < g + 1 := by linarith
  set k : ℝ := (g + 1) / (g - 1) with hk
  have hkpos : 0 < k := by positivity
  have hbase : ∀ m : ℝ, 0 < 2 / (g + 1) + m * m / k := fun m => by
    have := mul_self_nonneg m
    positivity
  have hlog : StrictMonoOn (fun m : ℝ => k / 2 * Real.log (2 / (g + 1) + m * m / k) - Real.log m) (Set.Ici 1) := by
    apply strictMonoOn_of_deriv_pos (convex_Ici 1)
    · intro m hm
      have hm' : (0 : ℝ) < m := lt_of_lt_of_le one_pos hm
      apply ContinuousAt.continuousWithinAt
      apply ContinuousAt.sub
      · apply ContinuousAt.mul continuousAt_const
        apply ContinuousAt.log
        · fun_prop
        · exact ne_of_gt (hbase m)
      · exact Real.continuousAt_log (ne_of_gt hm')
    · intro m hm
      rw [interior_Ici] at hm
      have hm1 : (1 : ℝ) < m := hm
      have hm0 : (0 : ℝ) < m := by linarith
      have d1 : HasDerivAt (fun m : ℝ => 2 / (g + 1) + m * m / k) ((1 * m + m * 1) / k) m := by
        have := (((hasDerivAt_id m).mul (hasDerivAt_id m)).div_const k).const_add (2 / (g + 1))
        exact this
      have d2 := (d1.log (ne_of_gt (hbase m))).const_mul (k / 2)
      have d3 := d2.sub (Real.hasDerivAt_log (ne_of_gt hm0))
      have e := d3.deriv
      have hfun : (fun m : ℝ => k / 2 * Real.log (2 / (g + 1) + m * m / k) - Real.log m)
        = ((fun y : ℝ => k / 2 * Real.log (2 / (g + 1) + y * y / k)) - Real.log) := rfl
      rw [hfun, e]
      have hB := hbase m
      have val : k / 2 * ((1 * m + m * 1) / k / (2 / (g + 1) + m * m / k)) - m⁻¹
          = (2 / (g + 1) * (m * m - 1)) / (m * (2 / (g + 1) + m * m / k)) := by
        have hx : 1 / k = 1 - 2 / (g + 1) := by
          rw [hk]; field_simp; ring
        have hmk : m * m / k = m * m * (1 - 2 / (g + 1)) := by rw [← hx]; ring
        rw [eq_div_iff (by positivity)]
        have hB' := ne_of_gt hB
        have hm0' := ne_of_gt hm0
        have hk' := ne_of_gt hkpos
        have s1 : k / 2 * ((1 * m + m * 1) / k / (2 / (g + 1) + m * m / k)) * (m * (2 / (g + 1) + m * m / k)) = m * m := by
          field_simp
          ring
        have s2 : m⁻¹ * (m * (2 / (g + 1) + m * m / k)) = 2 / (g + 1) + m * m / k := by
          rw [← mul_assoc, inv_mul_cancel₀ hm0', one_mul]
        rw [sub_mul, s1, s2, hmk]
        ring
      rw [val]
      have : 0 < m * m - 1 := by nlinarith
      positivity
  have hexp : ∀ m : ℝ, 0 < m → ratio g m = Real.exp (k / 2 * Real.log (2 / (g + 1) + m * m / k) - Real.log m) := by
    intro m hm
    unfold ratio
    rw [Real.exp_sub, Real.exp_log hm, Real.rpow_def_of_pos (hbase m), ← hk, mul_comm (Real.log _)]
    ring
  refine ⟨fun a ha b hb hab => ?_, ?_⟩
  · have ha' : (0 : ℝ) < a := lt_of_lt_of_le one_pos ha
    have hb' : (0 : ℝ) < b := lt_of_lt_of_le one_pos hb
    rw [hexp a ha', hexp b hb']
    exact Real.exp_lt_exp.mpr (hlog ha hb hab)
  · unfold ratio
    have : 2 / (g + 1) + 1 * 1 / ((g + 1) / (g - 1)) = 1 := by field_simp; ring
    rw [this, Real.one_rpow]
    norm_num

/-- So of a nozzle of the area ratio of any Mach number from 5/4 to 20 the search finds that number to within twice the tolerance. -/
theorem c100_nozzle (g m : ℝ) (hg : 1 < g) (h1 : 5 / 4 ≤ m) (h2 : m ≤ 20) : |exitMach (ratio g) (ratio g m) - m| < 2 / 10000 := by
  have hmono := (c100_ratio g hg).1
  have := c100_search (ratio g) (ratio g m) m (fun x hx _ => by
    constructor
    · intro h
      by_contra hc
      have : ratio g x ≤ ratio g m := by
        rcases eq_or_lt_of_le (not_lt.mp hc) with e | e
        · rw [e]
        · exact (hmono (Set.mem_Ici.mpr (by linarith)) (Set.mem_Ici.mpr (by linarith)) e).le
      linarith
    · intro h
      exact hmono (Set.mem_Ici.mpr (by linarith)) (Set.mem_Ici.mpr (by linarith)) h) h1 h2
  have e : (2 : ℝ) * tol = 2 / 10000 := by unfold tol; norm_num
  rwa [e] at this

/-- For a gas of two atoms, of the index 7/5, the ratio is rational. -/
theorem c100_seven_fifths (m : ℝ) : ratio (7 / 5) m = 1 / m * (5 / 6 + m * m / 6) ^ 3 := by
  unfold ratio
  have e : ((7 : ℝ) / 5 + 1) / (7 / 5 - 1) / 2 = ((3 : ℕ) : ℝ) := by norm_num
  rw [e, Real.rpow_natCast]
  norm_num

/-- The ratio of a gas of the index 7/5. -/
def c100Ratio (m : K) : K := 1 / m * (5 / 6 + m * m / 6) ^ 3

/-- Below 5/4 the search is lost: of a nozzle of the area ratio 51/50, which is that of a Mach number between 1 and 5/4, it ends with one below
a thousandth. -/
theorem c100_lost : exitMach c100Ratio (51 / 50 : ℚ) < 1 / 1000 ∧ c100Ratio (1 : ℚ) < 51 / 50 ∧ 51 / 50 < c100Ratio (5 / 4 : ℚ) := by
  decide +kernel

example : |exitMach c100Ratio (c100Ratio (3 : ℚ)) - 3| < 2 / 10000 := by decide +kernel

/-! ## The burning -/

/-- Without a flow nothing burns; a rocket that needs ignition lights only with it, and once lit burns through all passes with a flow and a hot mixture,
with or without ignition. -/
theorem c100_burns (b : Burn) (x : Feed K) (xs : List (Feed K)) :
    (∀ needs, x.rate ≤ fltEps → (burn needs b x).on = false)
      ∧ (b.on = false → x.ignition = false → (burn true b x).on = false)
      ∧ (x.ignition = true → fltEps < x.rate → x.cold = false → (burn true b x).on = true)
      ∧ (fltEps < x.rate → x.cold = false → (burn false b x).on = true)
      ∧ (b.on = true → (∀ y ∈ xs, fltEps < y.rate ∧ y.cold = false) →
          (xs.foldl (burn true) b).on = true ∧ (xs.foldl (burn true) b).count = b.count + xs.length) := by
  refine ⟨fun needs h => ?_, fun h1 h2 => ?_, fun h1 h2 h3 => ?_, fun h1 h2 => ?_, ?_⟩
  · cases needs <;> simp [burn, not_lt.mpr h]
  · simp [burn, h1, h2]
  · simp [burn, h1, h2, h3]
  · simp [burn, h1, h2]
  · intro h hx
    induction xs generalizing b with
    | nil => exact ⟨h, rfl⟩
    | cons y xs ih =>
      obtain ⟨y1, y2⟩ := hx y (by simp)
      have hon : (burn true b y).on = true := by simp [burn, h, y1, y2]
      have hcount : (burn true b y).count = b.count + 1 := by simp [burn, h, y1, y2]
      obtain ⟨r1, r2⟩ := ih (burn true b y) hon fun z hz => hx z (List.mem_cons_of_mem _ hz)
      refine ⟨r1, ?_⟩
      rw [List.foldl_cons, r2, hcount, List.length_cons]
      omega

/-- The count is that of the passes it has burned without a break. -/
theorem c100_count (needs : Bool) (b : Burn) (x : Feed K) :
    ((burn needs b x).on = true → (burn needs b x).count = b.count + 1) ∧ ((burn needs b x).on = false → (burn needs b x).count = 0)
      ∧ ((burn needs b x).count = 1 ↔ ((burn needs b x).on = true ∧ b.count = 0)) := by
  have e : (burn needs b x).count = if (burn needs b x).on then b.count + 1 else 0 := rfl
  cases hc : (burn needs b x).on
  · rw [e, hc]; simp
  · rw [e, hc]; simp

/-- The conductance is within its limits, none against the flow, and otherwise such that the pressures that it was found at drive the mass flow of the
nozzle, but for the first pass of the burning. -/
theorem c100_conductance (mdot p0 p1 minDp w v0 v1 dflt limit : K) (n : ℕ) (hl : 0 ≤ limit) :
    let c := conductance mdot p0 p1 minDp w v0 v1 dflt limit n
    0 ≤ c ∧ c ≤ limit ∧ (v0 ≤ v1 - fltEps → c = 0)
      ∧ (n ≠ 1 → dblEps < w → v1 - fltEps < v0 → 0 < minDp → p1 + minDp ≤ p0 → 0 ≤ mdot → mdot / (p0 - p1) / w ≤ limit → c * (p0 - p1) * w = mdot) := by
  intro c
  have he := dblEps_pos (K := K)
  have hc : c = conductance mdot p0 p1 minDp w v0 v1 dflt limit n := rfl
  unfold conductance at hc
  refine ⟨?_, ?_, fun h => ?_, fun h1 h2 h3 h4 h5 h6 h7 => ?_⟩
  · rw [hc]; simp only
    split
    · exact le_max_right _ _
    · exact le_refl _
  · rw [hc]; simp only
    split
    · exact max_le (min_le_right _ _) hl
    · exact hl
  · rw [hc]; simp only
    rw [if_neg (fun hh => absurd hh.2 (not_lt.mpr h))]
  · have hp : 0 < p0 - p1 := by linarith
    have hw : 0 < w := lt_trans he h2
    rw [hc]; simp only
    rw [if_pos ⟨h2, h3⟩, if_neg h1, max_eq_left h5]
    unfold Interp.limitRange
    rw [min_eq_left h7, max_eq_left (by positivity)]
    field_simp

/-- The thrust of a burning rocket is its mass flow times the exit velocity, tuned, and none without burning. -/
theorem c100_thrust (tuning rate ue g0 : K) (h : g0 ≠ 0) :
    thrust true tuning rate ue g0 = tuning * (rate * ue) ∧ thrust false tuning rate ue g0 = 0 := by
  unfold thrust
  constructor
  · rw [if_pos rfl]; field_simp
  · simp

end Gunns.Props
