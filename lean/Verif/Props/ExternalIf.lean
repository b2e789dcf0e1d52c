import Verif.Link.ExternalIf
import Mathlib.Tactic.Linarith
import Mathlib.Tactic.FieldSimp
import Mathlib.Tactic.Ring
import Mathlib.Tactic.Positivity

/-!
# C97: the two ends of an interface between networks
-/

set_option linter.unusedSectionVars false

namespace Gunns.Props

open Gunns Gunns.ExtIf

variable {K : Type*} [Field K] [LinearOrder K] [IsStrictOrderedRing K]

/-! ## The demand -/

/-- The conductivity of a demand is at least its least one, and exactly that without a time step; with a capacitance from the supply it is that
over the time step. -/
theorem c97_least (dt f p : K) (s : Filter K) :
    s.minG ≤ (basic dt f p s).cond ∧ (s.supplyC ≤ dblEps → s.minG ≤ (fluid dt f p s).cond)
      ∧ (dt ≤ dblEps → (basic dt f p s).cond = s.minG ∧ (fluid dt f p s).cond = s.minG)
      ∧ (dblEps < dt → dblEps < s.supplyC → dt * (fluid dt f p s).cond = s.supplyC) := by
  have he := dblEps_pos (K := K)
  refine ⟨?_, fun h => ?_, fun h => ?_, fun h h2 => ?_⟩
  · simp only [basic]
    split
    · exact le_max_right _ _
    · exact le_refl _
  · simp only [fluid, not_lt.mpr h, if_false]
    split
    · exact le_max_right _ _
    · exact le_refl _
  · simp only [basic, fluid, not_lt.mpr h, if_false]
    exact ⟨trivial, trivial⟩
  · simp only [fluid, h, h2, if_true]
    exact mul_div_cancel₀ _ (ne_of_gt (lt_trans he h))

/-- The estimate moves the share `gain` of the way to the capacitance that explains the averages, and not at all when the pressure has hardly
changed. -/
theorem c97_estimate (dt f p c : K) (s : Filter K) (hm : 0 ≤ s.minDp) :
    let t := basic dt f p s
    (s.minDp < |t.dp| → t.dp * c = -t.avgD * dt → t.est - c = (1 - s.gain) * (s.est - c)) ∧ (|t.dp| ≤ s.minDp → t.est = s.est) := by
  intro t
  have he : t.est = estimate s.minDp s.gain s.est t.avgD dt t.dp := rfl
  refine ⟨fun h hc => ?_, fun h => ?_⟩
  · have hne : t.dp ≠ 0 := by
      intro h0
      rw [h0, abs_zero] at h
      linarith
    have : -t.avgD * dt / t.dp = c := by
      rw [← hc]; field_simp
    rw [he]
    unfold estimate
    rw [if_pos h, this]
    ring
  · rw [he]
    unfold estimate
    rw [if_neg (not_lt.mpr h)]

private theorem params (dt : K) (f p : ℕ → K) (s : Filter K) (n : ℕ) :
    (run dt f p s n).minDp = s.minDp ∧ (run dt f p s n).gain = s.gain ∧ (run dt f p s n).minG = s.minG := by
  induction n with
  | zero => exact ⟨rfl, rfl, rfl⟩
  | succ n ih => exact ih

private theorem avg_nonneg (dt : K) (f p : ℕ → K) (s : Filter K) (h0 : 0 ≤ s.avgD) (hf : ∀ n, 2 * dblEps ≤ f n) (n : ℕ) :
    0 ≤ (run dt f p s n).avgD ∧ (run dt f p s (n + 1)).avgD = 1 / 2 * ((run dt f p s n).avgD + f n) := by
  have he := dblEps_pos (K := K)
  have key : ∀ n, 0 ≤ (run dt f p s n).avgD → (run dt f p s (n + 1)).avgD = 1 / 2 * ((run dt f p s n).avgD + f n) := by
    intro n hn
    have h1 : dblEps ≤ 1 / 2 * ((run dt f p s n).avgD + f n) := by linarith [hf n]
    show snap (1 / 2 * ((run dt f p s n).avgD + f n)) = _
    unfold snap
    rw [if_neg]
    rw [abs_of_nonneg (he.le.trans h1)]
    exact not_lt.mpr h1
  have hpos : ∀ n, 0 ≤ (run dt f p s n).avgD := by
    intro n
    induction n with
    | zero => exact h0
    | succ n ih =>
      rw [key n ih]
      linarith [hf n]
  exact ⟨hpos n, key n (hpos n)⟩

/-- A supply that is a capacitance `c`, drawn from by every flux of the demand: what the filter has left of its first error halves with every
pass. -/
theorem c97_halves (dt c : K) (f p : ℕ → K) (s : Filter K) (h0 : 0 ≤ s.avgD) (hf : ∀ n, 2 * dblEps ≤ f n)
    (hp : ∀ n, c * (p (n + 1) - p n) = -(f (n + 1) * dt)) (n : ℕ) :
    2 ^ n * (c * (run dt f p s (n + 1)).dp + (run dt f p s (n + 1)).avgD * dt)
      = c * (run dt f p s 1).dp + (run dt f p s 1).avgD * dt := by
  have hd : ∀ n, (run dt f p s (n + 2)).dp = 1 / 2 * ((run dt f p s (n + 1)).dp + (p (n + 1) - p n)) := by
    intro n
    have e1 : (run dt f p s (n + 2)).dp = -(run dt f p s (n + 1)).avgP + 1 / 2 * ((run dt f p s (n + 1)).avgP + p (n + 1)) := rfl
    have e2 : (run dt f p s (n + 1)).avgP = 1 / 2 * ((run dt f p s n).avgP + p n) := rfl
    have e3 : (run dt f p s (n + 1)).dp = -(run dt f p s n).avgP + 1 / 2 * ((run dt f p s n).avgP + p n) := rfl
    rw [e1, e3, e2]
    ring
  induction n with
  | zero => simp
  | succ n ih =>
    rw [← ih, hd n, (avg_nonneg dt f p s h0 hf (n + 1)).2]
    have := hp n
    have e : c * (1 / 2 * ((run dt f p s (n + 1)).dp + (p (n + 1) - p n)))
        = 1 / 2 * (c * (run dt f p s (n + 1)).dp + c * (p (n + 1) - p n)) := by ring
    rw [e, this, pow_succ]
    ring

/-- If there is no such error, and the pressure changes enough at each pass, the estimate closes in on the capacitance of the supply by
the same factor at every pass. -/
theorem c97_converges (dt c : K) (f p : ℕ → K) (s : Filter K) (h0 : 0 ≤ s.avgD) (hf : ∀ n, 2 * dblEps ≤ f n) (hm : 0 ≤ s.minDp)
    (hp : ∀ n, c * (p (n + 1) - p n) = -(f (n + 1) * dt)) (hs : c * (run dt f p s 1).dp = -((run dt f p s 1).avgD * dt))
    (hc : ∀ n, s.minDp < |(run dt f p s (n + 1)).dp|) (n : ℕ) :
    (run dt f p s n).est - c = (1 - s.gain) ^ n * (s.est - c) := by
  induction n with
  | zero => simp [run]
  | succ n ih =>
    have hz := c97_halves dt c f p s h0 hf hp n
    have hz' : c * (run dt f p s (n + 1)).dp + (run dt f p s (n + 1)).avgD * dt = 0 := by
      have : c * (run dt f p s 1).dp + (run dt f p s 1).avgD * dt = 0 := by linarith
      rw [this] at hz
      rcases mul_eq_zero.mp hz with h | h
      · exact absurd h (by positivity)
      · exact h
    obtain ⟨q1, q2, -⟩ := params dt f p s n
    have := (c97_estimate dt (f n) (p n) c (run dt f p s n) (by rw [q1]; exact hm)).1
      (by rw [q1]; exact hc n) (by
        show (run dt f p s (n + 1)).dp * c = -(run dt f p s (n + 1)).avgD * dt
        linarith)
    have e : (run dt f p s (n + 1)).est - c = (1 - (run dt f p s n).gain) * ((run dt f p s n).est - c) := this
    rw [e, ih, q2, pow_succ]
    ring

/-- With a converged estimate the link is the capacitance over the time step, unless that is less than the least conductivity. -/
theorem c97_conductivity (dt f p c : K) (s : Filter K) (hdt : dblEps < dt) (hc : (basic dt f p s).est = c) (hg : s.minG * dt ≤ c) :
    (basic dt f p s).cond * dt = c := by
  have he := dblEps_pos (K := K)
  have hpos : 0 < dt := lt_trans he hdt
  have e : (basic dt f p s).cond = max ((basic dt f p s).est / dt) s.minG := by
    show (if dblEps < dt then max ((basic dt f p s).est / dt) s.minG else s.minG) = _
    rw [if_pos hdt]
  rw [e, hc, max_eq_left ((le_div_iff₀ hpos).mpr hg)]
  exact div_mul_cancel₀ _ (ne_of_gt hpos)

/-- The fluid demand is the basic one where nothing is all but zero and the supply gives no capacitance. -/
theorem c97_fluid_same (dt f p : K) (s : Filter K) (h1 : dblEps ≤ |(basic dt f p s).avgP|) (h2 : dblEps ≤ |(basic dt f p s).est|)
    (h3 : s.supplyC ≤ dblEps) : fluid dt f p s = basic dt f p s := by
  have hs : ∀ x : K, dblEps ≤ |x| → snap x = x := fun x hx => by unfold snap; rw [if_neg (not_lt.mpr hx)]
  have ha : snap (1 / 2 * (s.avgP + p)) = 1 / 2 * (s.avgP + p) := hs _ h1
  have hest : (if s.minDp < |(-s.avgP + 1 / 2 * (s.avgP + p))| then
      snap (estimate s.minDp s.gain s.est (snap (1 / 2 * (s.avgD + f))) dt (-s.avgP + 1 / 2 * (s.avgP + p))) else s.est)
      = estimate s.minDp s.gain s.est (snap (1 / 2 * (s.avgD + f))) dt (-s.avgP + 1 / 2 * (s.avgP + p)) := by
    split
    · exact hs _ h2
    · rename_i h
      unfold estimate
      rw [if_neg h]
  simp only [fluid, basic, ha, hest, not_lt.mpr h3, if_false]

/-- From a fresh start with a pressure and an outflow the first estimate is negative, and so the link begins with the least conductivity. -/
theorem c97_start (dt f p : K) (s : Filter K) (h : s.avgD = 0 ∧ s.avgP = 0 ∧ s.est = 0) (hg : 0 < s.gain) (hdt : dblEps < dt)
    (hf : 2 * dblEps ≤ f) (hm : 0 ≤ s.minDp) (hp : 2 * s.minDp < p) (hl : 0 ≤ s.minG) :
    (basic dt f p s).est < 0 ∧ (basic dt f p s).cond = s.minG := by
  obtain ⟨h1, h2, h3⟩ := h
  have he := dblEps_pos (K := K)
  have hpos : 0 < dt := lt_trans he hdt
  have hpp : 0 < p := by linarith
  have hd : (basic dt f p s).avgD = 1 / 2 * f := by
    show snap (1 / 2 * (s.avgD + f)) = _
    rw [h1, zero_add]
    unfold snap
    rw [if_neg]
    rw [abs_of_nonneg (by linarith)]
    exact not_lt.mpr (by linarith)
  have hdp : (basic dt f p s).dp = 1 / 2 * p := by
    show -s.avgP + 1 / 2 * (s.avgP + p) = _
    rw [h2]; ring
  have hest : (basic dt f p s).est = s.gain * (-(1 / 2 * f) * dt / (1 / 2 * p)) := by
    show estimate s.minDp s.gain s.est (basic dt f p s).avgD dt (basic dt f p s).dp = _
    rw [hd, hdp, h3]
    unfold estimate
    rw [if_pos (by rw [abs_of_nonneg (by linarith)]; linarith)]
    ring
  have hneg : (basic dt f p s).est < 0 := by
    rw [hest]
    apply mul_neg_of_pos_of_neg hg
    apply div_neg_of_neg_of_pos
    · apply mul_neg_of_neg_of_pos _ hpos
      linarith
    · linarith
  refine ⟨hneg, ?_⟩
  show (if dblEps < dt then max ((basic dt f p s).est / dt) s.minG else s.minG) = _
  rw [if_pos hdt, max_eq_right]
  exact le_trans (div_neg_of_neg_of_pos hneg hpos).le hl

/-- A pass without a time step takes the share `gain` from the estimate while the averaged pressure still moves. -/
theorem c97_pause (f p : K) (s : Filter K) (h : s.minDp < |(basic 0 f p s).dp|) : (basic 0 f p s).est = (1 - s.gain) * s.est := by
  show estimate s.minDp s.gain s.est (basic 0 f p s).avgD 0 (basic 0 f p s).dp = _
  unfold estimate
  rw [if_pos h]
  simp

/-! ## The supply -/

private theorem getSum_eq (q : List K) : getSum q = q.sum := by
  have key : ∀ (q : List K) (a : K), q.foldl (· + ·) a = a + q.sum := by
    intro q
    induction q with
    | nil => intro a; simp
    | cons x q ih => intro a; rw [List.foldl_cons, ih, List.sum_cons]; ring
  unfold getSum
  rw [key, zero_add]

/-- The average is the one flux that over the time of the queue gives what its fluxes gave. -/
theorem c97_average (q : List K) :
    (∀ a, getAverage q = some a → a * q.length = q.sum) ∧ (getAverage q = none ↔ q = []) := by
  unfold getAverage
  refine ⟨fun a h => ?_, ?_⟩
  · split at h
    · exact absurd h (by simp)
    · rename_i hq
      have hne : (q.length : K) ≠ 0 := by
        have : q.length ≠ 0 := by omega
        exact_mod_cast this
      have : getSum q / q.length = a := by simpa using h
      rw [← this, getSum_eq]
      exact div_mul_cancel₀ _ hne
  · cases q with
    | nil => simp
    | cons x q => simp

/-- Over any passes with queues that cover their time the supply gives exactly what all the fluxes of the demand took. -/
theorem c97_conserves (dt old : K) (qs : List (List K)) :
    given dt old qs = (qs.map fun q => (q.map fun x => x * dt).sum).sum := by
  induction qs generalizing old with
  | nil => rfl
  | cons q qs ih =>
    have e : inputs old q * (q.length * dt) = (q.map fun x => x * dt).sum := by
      have hsum : (q.map fun x => x * dt).sum = q.sum * dt := by
        clear ih
        induction q with
        | nil => simp
        | cons x q ih => rw [List.map_cons, List.sum_cons, ih, List.sum_cons]; ring
      rw [hsum]
      cases q with
      | nil => simp
      | cons x q =>
        have h := (c97_average (x :: q)).1
        unfold inputs
        rw [if_pos (by simp)]
        cases ha : getAverage (x :: q) with
        | none => exact absurd ((c97_average (x :: q)).2.mp ha) (by simp)
        | some a =>
          show a * _ = _
          rw [← h a ha]
          ring
    rw [given, ih, e, List.map_cons, List.sum_cons]

/-- Without a queue the last flux is held; with one of any size the flux is its average and the last is forgotten. -/
theorem c97_holds (old old' x : K) (q : List K) : inputs old [] = old ∧ inputs old (x :: q) = inputs old' (x :: q) := by
  refine ⟨rfl, ?_⟩
  unfold inputs
  rw [if_pos (by simp), if_pos (by simp)]
  cases ha : getAverage (x :: q) with
  | none => exact absurd ((c97_average (x :: q)).2.mp ha) (by simp)
  | some a => rfl

/-- Queues that do not cover the passes of the supply: one flux of 12 and then three of nothing in passes of two steps give 24 in
place of 12, and a pass without any gives the last flux once more. -/
theorem c97_jitter :
    inputs (0 : ℚ) [12] * 2 + inputs 12 [0, 0, 0] * 2 = 24 ∧ ([12] ++ [0, 0, 0] : List ℚ).sum * 1 = 12
      ∧ inputs (inputs (0 : ℚ) [12]) [] = 12 := by
  decide +kernel

/-- The two flows of a fluid supply agree: none, or a mass that is the moles times the molecular weight of the fluid that flows, of the size of
the least flow at least; moles come first. -/
theorem c97_flows (wi wn f r : K) (hi : 0 < wi) (hn : 0 < wn) :
    let y := supply wi wn f r
    ((y.flux = 0 ∧ y.rate = 0) ∨ (100 * dblEps ≤ |y.rate| ∧ ((0 < y.flux ∧ y.rate = y.flux * wn) ∨ (y.flux < 0 ∧ y.rate = y.flux * wi))))
      ∧ (dblEps < |f| → y.flux = f ∨ y.flux = 0) ∧ (|f| ≤ dblEps → y.rate = r ∨ y.rate = 0) := by
  have he := dblEps_pos (K := K)
  intro y
  have hy : y = if |(choose wi wn ⟨f, r⟩).rate| < 100 * dblEps then ⟨0, 0⟩ else choose wi wn ⟨f, r⟩ := rfl
  have hsel : (|(choose wi wn ⟨f, r⟩).rate| ≤ dblEps ∨ ((0 < (choose wi wn ⟨f, r⟩).flux ∧ (choose wi wn ⟨f, r⟩).rate = (choose wi wn ⟨f, r⟩).flux * wn)
      ∨ ((choose wi wn ⟨f, r⟩).flux < 0 ∧ (choose wi wn ⟨f, r⟩).rate = (choose wi wn ⟨f, r⟩).flux * wi)))
      ∧ (dblEps < |f| → (choose wi wn ⟨f, r⟩).flux = f) ∧ (|f| ≤ dblEps → (choose wi wn ⟨f, r⟩).rate = r) := by
    unfold choose
    by_cases h1 : f < -dblEps
    · simp only [h1, if_true]
      refine ⟨Or.inr (Or.inr ⟨by linarith, trivial⟩), fun _ => trivial, fun h => ?_⟩
      rw [abs_of_neg (by linarith)] at h; linarith
    · by_cases h2 : dblEps < f
      · simp only [h1, h2, if_true, if_false]
        refine ⟨Or.inr (Or.inl ⟨by linarith, trivial⟩), fun _ => trivial, fun h => ?_⟩
        rw [abs_of_pos (by linarith)] at h; linarith
      · have hf : |f| ≤ dblEps := abs_le.mpr ⟨not_lt.mp h1, not_lt.mp h2⟩
        by_cases h3 : r < -dblEps
        · simp only [h1, h2, h3, if_true, if_false]
          refine ⟨Or.inr (Or.inr ⟨div_neg_of_neg_of_pos (by linarith) hi, (div_mul_cancel₀ _ (ne_of_gt hi)).symm⟩), fun h => absurd hf (not_le.mpr h), fun _ => trivial⟩
        · by_cases h4 : dblEps < r
          · simp only [h1, h2, h3, h4, if_true, if_false]
            refine ⟨Or.inr (Or.inl ⟨div_pos (by linarith) hn, (div_mul_cancel₀ _ (ne_of_gt hn)).symm⟩), fun h => absurd hf (not_le.mpr h), fun _ => trivial⟩
          · simp only [h1, h2, h3, h4, if_false]
            exact ⟨Or.inl (abs_le.mpr ⟨not_lt.mp h3, not_lt.mp h4⟩), fun h => absurd hf (not_le.mpr h), fun _ => trivial⟩
  obtain ⟨s1, s2, s3⟩ := hsel
  by_cases hz : |(choose wi wn ⟨f, r⟩).rate| < 100 * dblEps
  · rw [hy, if_pos hz]
    exact ⟨Or.inl ⟨rfl, rfl⟩, fun _ => Or.inr rfl, fun _ => Or.inr rfl⟩
  · rw [hy, if_neg hz]
    refine ⟨Or.inr ⟨not_lt.mp hz, ?_⟩, fun h => Or.inl (s2 h), fun h => Or.inl (s3 h)⟩
    rcases s1 with h | h
    · exact absurd (lt_of_le_of_lt h (by linarith)) hz
    · exact h

/-- A demand of a size that counts is met: it is not made zero. -/
theorem c97_met (wi wn f r : K) :
    (dblEps < f → 100 * dblEps ≤ f * wn → supply wi wn f r = ⟨f, f * wn⟩)
      ∧ (f < -dblEps → 100 * dblEps ≤ -(f * wi) → supply wi wn f r = ⟨f, f * wi⟩)
      ∧ (|f| ≤ dblEps → 100 * dblEps ≤ r → supply wi wn f r = ⟨r / wn, r⟩)
      ∧ (|f| ≤ dblEps → 100 * dblEps ≤ -r → supply wi wn f r = ⟨r / wi, r⟩) := by
  have he := dblEps_pos (K := K)
  have big : ∀ x : K, 100 * dblEps ≤ x → ¬ |x| < 100 * dblEps := fun x hx => not_lt.mpr (hx.trans (le_abs_self x))
  have big' : ∀ x : K, 100 * dblEps ≤ -x → ¬ |x| < 100 * dblEps := fun x hx => not_lt.mpr (hx.trans (neg_le_abs x))
  refine ⟨fun h1 h2 => ?_, fun h1 h2 => ?_, fun h1 h2 => ?_, fun h1 h2 => ?_⟩
  · have h3 : ¬ f < -dblEps := by linarith
    simp only [supply, choose, h3, h1, if_true, if_false, big _ h2]
  · simp only [supply, choose, h1, if_true, big' _ h2, if_false]
  · obtain ⟨a, b⟩ := abs_le.mp h1
    have c : ¬ r < -dblEps := by linarith
    have d : dblEps < r := by linarith
    simp only [supply, choose, not_lt.mpr a, not_lt.mpr b, c, d, if_true, if_false, big _ h2]
  · obtain ⟨a, b⟩ := abs_le.mp h1
    have c : r < -dblEps := by linarith
    simp only [supply, choose, not_lt.mpr a, not_lt.mpr b, c, if_true, if_false, big' _ h2]

/-- The ground is on port 1 of a supply and on port 0 of a demand, and on no other of the two. -/
theorem c97_ports (ground node : ℕ) :
    (supplyPort ground 0 node = true ↔ node ≠ ground) ∧ (supplyPort ground 1 node = true ↔ node = ground)
      ∧ (demandPort ground 1 node = true ↔ node ≠ ground) ∧ (demandPort ground 0 node = true ↔ node = ground) := by
  unfold supplyPort demandPort
  by_cases h : node = ground <;> simp [h]

/-! ## Cases -/

private def fresh : Filter ℚ := ⟨1, 1 / 100000000, 1 / 20, 0, 0, 0, 0, 0, 0⟩

/-- A supply of the capacitance 10 at 100, from which a flux of 20 is drawn in steps of 1/10. -/
private def held : Filter ℚ := { fresh with avgP := 100 }

private def pot (n : ℕ) : ℚ := 100 - (n + 1) * (2 / 10)

example : (∀ n, (10 : ℚ) * (pot (n + 1) - pot n) = -(20 * (1 / 10))) ∧ (10 : ℚ) * (run (1 / 10) (fun _ => 20) pot held 1).dp
    = -((run (1 / 10) (fun _ => 20) pot held 1).avgD * (1 / 10)) ∧ 2 * (dblEps : ℚ) ≤ 20 ∧ 0 ≤ held.avgD := by
  refine ⟨fun n => ?_, by decide +kernel, by decide +kernel, by decide +kernel⟩
  unfold pot
  push_cast
  ring

/-- Of these passes the pressure changes enough at each. -/
example (n : ℕ) : held.minDp < |(run (1 / 10) (fun _ => 20) pot held (n + 1)).dp| := by
  have hf : ∀ n : ℕ, 2 * (dblEps : ℚ) ≤ (fun _ : ℕ => (20 : ℚ)) n := fun n => by
    have : 2 * (dblEps : ℚ) ≤ 20 := by decide +kernel
    exact this
  have hp : ∀ n, (10 : ℚ) * (pot (n + 1) - pot n) = -((fun _ => (20 : ℚ)) (n + 1) * (1 / 10)) := fun n => by
    unfold pot; push_cast; ring
  have h0 : 0 ≤ held.avgD := le_refl _
  have h := c97_halves (1 / 10) 10 (fun _ => 20) pot held h0 hf hp n
  have hs : (10 : ℚ) * (run (1 / 10) (fun _ => 20) pot held 1).dp + (run (1 / 10) (fun _ => 20) pot held 1).avgD * (1 / 10) = 0 := by
    decide +kernel
  rw [hs] at h
  have hz : (10 : ℚ) * (run (1 / 10) (fun _ => 20) pot held (n + 1)).dp + (run (1 / 10) (fun _ => 20) pot held (n + 1)).avgD * (1 / 10) = 0 := by
    rcases mul_eq_zero.mp h with h | h
    · exact absurd h (by positivity)
    · exact h
  obtain ⟨a1, a2⟩ := avg_nonneg (1 / 10) (fun _ => 20) pot held h0 hf n
  have : (run (1 / 10) (fun _ => 20) pot held (n + 1)).dp ≤ -(1 / 10) := by
    rw [a2] at hz
    linarith
  have hm : held.minDp = 1 / 100000000 := rfl
  rw [hm, abs_of_neg (by linarith)]
  linarith

example : (basic (1 / 10) 20 100 fresh).est < 0 ∧ (basic (1 / 10) 20 100 fresh).cond = 1 := by decide +kernel

example : given (1 / 10) (0 : ℚ) [[1, 2], [3], [], [4, 5, 6]] = 21 / 10 := by decide +kernel

/-- The fluid demand makes an average that is all but zero zero. -/
theorem c97_fluid_zero (dt f p : K) (s : Filter K) :
    (|1 / 2 * (s.avgP + p)| < dblEps → (fluid dt f p s).avgP = 0) ∧ (|1 / 2 * (s.avgD + f)| < dblEps → (fluid dt f p s).avgD = 0) :=
  ⟨fun h => if_pos h, fun h => if_pos h⟩

end Gunns.Props
