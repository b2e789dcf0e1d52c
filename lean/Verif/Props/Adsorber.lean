import Verif.Fluid.Adsorber
import Mathlib.Tactic.Linarith
import Mathlib.Tactic.FieldSimp
import Mathlib.Tactic.Ring
import Mathlib.Tactic.Positivity

/-!
# C82: an adsorber stores what it takes from the stream

The theorems are about `Gunns.Adsorb.updateFluid`, one pass of an adsorber, and about sequences of passes of any length.
-/

namespace Gunns.Props

open Gunns.Adsorb Gunns.Fluid

variable {K : Type*} [Field K] [LinearOrder K] [IsStrictOrderedRing K]

/-- The mass that a pass takes from the node at the exit. -/
def c82_taken (a : Adsorber K) (p : Pass K) : K :=
  match (updateFluid a p).given with
  | some (_, r) => -r * p.dt
  | none => 0

/-- The mass that a sequence of passes takes from the nodes. -/
def c82_takenAll : Adsorber K → List (Pass K) → K
  | _, [] => 0
  | a, p :: ps => c82_taken a p + c82_takenAll (updateFluid a p).bed ps

/-- The time of a sequence of passes, without passes that go back. -/
def c82_time (ps : List (Pass K)) : K := (ps.map (fun p => max p.dt 0)).sum

omit [IsStrictOrderedRing K] in
private theorem efficiency_keeps (a : Adsorber K) (t : K) :
    (computeEfficiency a t).1.adsorbed = a.adsorbed ∧ (computeEfficiency a t).1.maxMass = a.maxMass ∧
    (computeEfficiency a t).1.maxRate = a.maxRate ∧ (computeEfficiency a t).1.desorbRate = a.desorbRate ∧
    (computeEfficiency a t).1.source = a.source ∧ (computeEfficiency a t).1.tcAdsorbed = a.tcAdsorbed ∧
    (computeEfficiency a t).1.tcMax = a.tcMax ∧ (computeEfficiency a t).1.tcEfficiency = a.tcEfficiency := by
  unfold computeEfficiency
  cases a.hot with
  | none => exact ⟨rfl, rfl, rfl, rfl, rfl, rfl, rfl, rfl⟩
  | some b => exact ⟨rfl, rfl, rfl, rfl, rfl, rfl, rfl, rfl⟩

/-- The efficiency that a pass works with, and whether it desorbs. -/
def c82_mode (a : Adsorber K) (p : Pass K) : Bool × K :=
  let c := computeEfficiency { a with
    rate := 0
    mass := 0 } p.temp
  (c.1.cycle, c.2)

/-- The mass that a pass puts into the bed, negative when it desorbs. -/
def c82_stored (a : Adsorber K) (p : Pass K) : K :=
  if (c82_mode a p).1 then desorbMass a p (c82_mode a p).2 else adsorbMass a p (c82_mode a p).2

omit [IsStrictOrderedRing K] in
private theorem sorb_eq (a : Adsorber K) (p : Pass K) :
    (sorb a p).1.adsorbed = a.adsorbed + c82_stored a p ∧ (sorb a p).1.mass = c82_stored a p ∧
    (sorb a p).1.rate = -c82_stored a p / p.dt ∧ (sorb a p).1.source = a.source ∧
    (sorb a p).1.maxMass = a.maxMass := by
  have hk := efficiency_keeps { a with
    rate := 0
    mass := 0 } p.temp
  unfold sorb c82_stored c82_mode
  dsimp only
  by_cases h : (computeEfficiency { a with
    rate := 0
    mass := 0 } p.temp).1.cycle = true
  · rw [if_pos h, if_pos h]
    unfold desorb desorbMass
    simp only [hk.1, hk.2.1, hk.2.2.2.1, hk.2.2.2.2.1, and_self]
  · rw [if_neg h, if_neg h]
    unfold adsorb adsorbMass
    simp only [hk.1, hk.2.1, hk.2.2.1, hk.2.2.2.2.1, and_self]

omit [IsStrictOrderedRing K] in
private theorem bed_adsorbed (a : Adsorber K) (p : Pass K) (h : dblEps < p.dt) :
    (updateFluid a p).bed.adsorbed = a.adsorbed + c82_stored a p := by
  unfold updateFluid
  rw [if_pos h]
  dsimp only
  split_ifs <;> exact (sorb_eq a p).1

omit [IsStrictOrderedRing K] in
private theorem bed_idle (a : Adsorber K) (p : Pass K) (h : ¬ dblEps < p.dt) :
    (updateFluid a p).bed.adsorbed = a.adsorbed ∧ (updateFluid a p).given = none ∧
    (updateFluid a p).bed.maxMass = a.maxMass := by
  unfold updateFluid
  rw [if_neg h]
  exact ⟨rfl, rfl, rfl⟩

omit [IsStrictOrderedRing K] in
private theorem bed_max (a : Adsorber K) (p : Pass K) : (updateFluid a p).bed.maxMass = a.maxMass := by
  by_cases h : dblEps < p.dt
  · unfold updateFluid
    rw [if_pos h]
    dsimp only
    split_ifs <;> exact (sorb_eq a p).2.2.2.2
  · exact (bed_idle a p h).2.2

private theorem stored_bounds (a : Adsorber K) (p : Pass K) (h0 : 0 ≤ a.adsorbed) :
    -a.adsorbed ≤ c82_stored a p ∧ c82_stored a p ≤ max 0 (a.maxMass - a.adsorbed) := by
  unfold c82_stored
  split_ifs
  · unfold desorbMass
    constructor
    · rw [neg_le_neg_iff]
      exact max_le (min_le_left _ _) h0
    · exact le_trans (neg_nonpos.2 (le_max_right _ _)) (le_max_left _ _)
  · unfold adsorbMass
    constructor
    · exact le_trans (neg_nonpos.2 h0) (le_max_right _ _)
    · refine max_le ?_ (le_max_left _ _)
      exact le_trans (min_le_right _ _) (le_trans (min_le_right _ _) (le_max_right _ _))

/-- **C82, the capacity.** Whatever the flows, temperatures, steps, efficiencies and malfunctions, after any number of passes the
adsorbed mass is not negative and at most the capacity, or what was there at the start if that was more. -/
theorem c82_capacity (ps : List (Pass K)) : ∀ (a : Adsorber K), 0 ≤ a.adsorbed →
    0 ≤ (run a ps).adsorbed ∧ (run a ps).adsorbed ≤ max a.maxMass a.adsorbed := by
  induction ps with
  | nil => intro a h; exact ⟨h, le_max_right _ _⟩
  | cons p ps ih =>
    intro a h
    have hstep : 0 ≤ (updateFluid a p).bed.adsorbed ∧
        (updateFluid a p).bed.adsorbed ≤ max a.maxMass a.adsorbed := by
      by_cases hd : dblEps < p.dt
      · rw [bed_adsorbed a p hd]
        have hb := stored_bounds a p h
        refine ⟨by linarith, ?_⟩
        rcases le_total 0 (a.maxMass - a.adsorbed) with hc | hc
        · rw [max_eq_right hc] at hb
          exact le_trans (by linarith) (le_max_left _ _)
        · rw [max_eq_left hc] at hb
          exact le_trans (by linarith) (le_max_right _ _)
      · rw [(bed_idle a p hd).1]
        exact ⟨h, le_max_right _ _⟩
    have hi := ih (updateFluid a p).bed hstep.1
    rw [bed_max] at hi
    refine ⟨hi.1, le_trans hi.2 ?_⟩
    exact max_le (le_max_left _ _) hstep.2

/-- **C82, the books.** The mass taken from the node at the exit is the mass that is added to the bed, unless the rate is at most
100 DBL_EPSILON: then it is added without being taken. -/
theorem c82_books (a : Adsorber K) (p : Pass K) :
    (c82_taken a p = (updateFluid a p).bed.adsorbed - a.adsorbed ∨
      (c82_taken a p = 0 ∧ (updateFluid a p).given = none ∧
        |(updateFluid a p).bed.adsorbed - a.adsorbed| ≤ 100 * dblEps * p.dt)) ∧
    (∀ k r, (updateFluid a p).given = some (k, r) → 100 * dblEps < |r| ∧ k = if 0 ≤ p.flow then 1 else 0) := by
  by_cases hd : dblEps < p.dt
  · have hp : 0 < p.dt := lt_trans dblEps_pos hd
    rw [bed_adsorbed a p hd]
    have hs := (sorb_eq a p).2.2.1
    by_cases hr : eps100 < |(sorb a p).1.rate|
    · have hg : (updateFluid a p).given = some (exitPort p.flow, (sorb a p).1.rate) := by
        unfold updateFluid
        rw [if_pos hd]
        dsimp only
        rw [if_pos hr]
      refine ⟨Or.inl ?_, ?_⟩
      · unfold c82_taken
        rw [hg]
        dsimp only
        rw [hs]
        field_simp
        ring
      · intro k r h
        rw [hg] at h
        obtain ⟨rfl, rfl⟩ := Prod.mk.inj (Option.some.inj h)
        exact ⟨hr, rfl⟩
    · have hg : (updateFluid a p).given = none := by
        unfold updateFluid
        rw [if_pos hd]
        dsimp only
        rw [if_neg hr]
      refine ⟨Or.inr ⟨?_, hg, ?_⟩, ?_⟩
      · unfold c82_taken
        rw [hg]
      · rw [hs, abs_div, abs_neg, abs_of_pos hp] at hr
        have h := not_lt.1 hr
        rw [div_le_iff₀ hp] at h
        rw [add_sub_cancel_left]
        exact h
      · intro k r h
        rw [hg] at h
        exact absurd h (by simp)
  · have hi := bed_idle a p hd
    refine ⟨Or.inl ?_, ?_⟩
    · unfold c82_taken
      rw [hi.2.1, hi.1]
      simp
    · intro k r h
      rw [hi.2.1] at h
      exact absurd h (by simp)

/-- **C82, the books of a run.** After any number of passes the mass in the bed is that at the start and all that was taken from
the nodes, up to 100 DBL_EPSILON kg/s over the time of the run. -/
theorem c82_books_run (ps : List (Pass K)) : ∀ (a : Adsorber K),
    |(run a ps).adsorbed - a.adsorbed - c82_takenAll a ps| ≤ 100 * dblEps * c82_time ps := by
  induction ps with
  | nil => intro a; simp [run, c82_takenAll, c82_time]
  | cons p ps ih =>
    intro a
    have hi := ih (updateFluid a p).bed
    have h100 : (0 : K) ≤ 100 * dblEps := by have := dblEps_pos (K := K); positivity
    have hone : |(updateFluid a p).bed.adsorbed - a.adsorbed - c82_taken a p| ≤ 100 * dblEps * max p.dt 0 := by
      rcases (c82_books a p).1 with h | ⟨h, -, h2⟩
      · rw [h, sub_self, abs_zero]
        exact mul_nonneg h100 (le_max_right _ _)
      · rw [h, sub_zero]
        exact le_trans h2 (mul_le_mul_of_nonneg_left (le_max_left _ _) h100)
    have ht : c82_time (p :: ps) = max p.dt 0 + c82_time ps := by simp [c82_time]
    have hr : run a (p :: ps) = run (updateFluid a p).bed ps := rfl
    have htk : c82_takenAll a (p :: ps) = c82_taken a p + c82_takenAll (updateFluid a p).bed ps := rfl
    rw [ht, hr, htk, mul_add]
    calc _ = |((updateFluid a p).bed.adsorbed - a.adsorbed - c82_taken a p) +
          ((run (updateFluid a p).bed ps).adsorbed - (updateFluid a p).bed.adsorbed -
            c82_takenAll (updateFluid a p).bed ps)| := by congr 1; ring
      _ ≤ _ := le_trans (abs_add_le _ _) (add_le_add hone hi)

/-- **C82, the law.** An adsorbing pass of an efficiency from 0 to 1 with room left stores the least of what the efficiency takes
of the gas that comes in, what the rate limit allows, and the room; so it never stores more than comes in.  A desorbing pass of
a non-positive efficiency gives off the lesser of what is there and the desorption rate times the efficiency. -/
theorem c82_law (a : Adsorber K) (p : Pass K) (hd : dblEps < p.dt) :
    ((c82_mode a p).1 = false → 0 ≤ (c82_mode a p).2 → (c82_mode a p).2 ≤ 1 → 0 ≤ p.fraction → 0 ≤ a.maxRate →
      a.adsorbed ≤ a.maxMass →
      (updateFluid a p).bed.adsorbed - a.adsorbed =
        min ((c82_mode a p).2 * (p.fraction * |p.flow|) * p.dt) (min (a.maxRate * p.dt) (a.maxMass - a.adsorbed)) ∧
      (updateFluid a p).bed.adsorbed - a.adsorbed ≤ p.fraction * |p.flow| * p.dt) ∧
    ((c82_mode a p).1 = true → (c82_mode a p).2 ≤ 0 → 0 ≤ a.desorbRate → 0 ≤ a.adsorbed →
      a.adsorbed - (updateFluid a p).bed.adsorbed = min a.adsorbed (|(c82_mode a p).2| * a.desorbRate * p.dt)) := by
  have hp : 0 < p.dt := lt_trans dblEps_pos hd
  rw [bed_adsorbed a p hd]
  constructor
  · intro hm h0 h1 hf hr hc
    unfold c82_stored
    rw [hm]
    simp only [Bool.false_eq_true, if_false]
    unfold adsorbMass
    have hin : 0 ≤ p.fraction * |p.flow| * p.dt := by positivity
    have he : p.fraction * |p.flow| * p.dt * (c82_mode a p).2 = (c82_mode a p).2 * (p.fraction * |p.flow|) * p.dt := by
      ring
    have hnn : 0 ≤ min (p.fraction * |p.flow| * p.dt * (c82_mode a p).2) (min (a.maxRate * p.dt) (a.maxMass - a.adsorbed)) :=
      le_min (mul_nonneg hin h0) (le_min (by positivity) (by linarith))
    rw [max_eq_left hnn, add_sub_cancel_left, he]
    refine ⟨rfl, ?_⟩
    rw [← he]
    exact le_trans (min_le_left _ _) (mul_le_of_le_one_right hin h1)
  · intro hm h0 hr ha
    unfold c82_stored
    rw [hm]
    simp only [if_true]
    unfold desorbMass
    have hnn : 0 ≤ min a.adsorbed (-(c82_mode a p).2 * a.desorbRate * p.dt) :=
      le_min ha (by have : 0 ≤ -(c82_mode a p).2 := by linarith
                    positivity)
    rw [max_eq_left hnn, abs_of_nonpos h0]
    ring

/-- **C82, the mode.** A hot adsorber desorbs exactly when its efficiency is negative; without malfunction that is between -1 and
1, and does not fall as the gas warms if its factor is not negative.  An adsorber at a constant efficiency desorbs when commanded,
at the full rate. -/
theorem c82_mode_law (a : Adsorber K) (p : Pass K) :
    (∀ b s, a.hot = some (b, s) →
      ((c82_mode a p).1 = true ↔ (c82_mode a p).2 < 0) ∧
      (a.malf = none → -1 ≤ (c82_mode a p).2 ∧ (c82_mode a p).2 ≤ 1 ∧
        (-1 ≤ b + s * p.temp → b + s * p.temp ≤ 1 → (c82_mode a p).2 = b + s * p.temp) ∧
        (∀ q : Pass K, 0 ≤ s → p.temp ≤ q.temp → (c82_mode a p).2 ≤ (c82_mode a q).2))) ∧
    (a.hot = none → (c82_mode a p).1 = a.cycle ∧
      (a.malf = none → (c82_mode a p).2 = if a.cycle then -1 else a.efficiency)) ∧
    (∀ v, a.malf = some v → (c82_mode a p).2 = v) := by
  refine ⟨?_, ?_, ?_⟩
  · intro b s hh
    have hm : ∀ q : Pass K, c82_mode a q = (decide (a.malf.getD (Interp.limitRange (-1) (b + s * q.temp) 1) < 0),
        a.malf.getD (Interp.limitRange (-1) (b + s * q.temp) 1)) := by
      intro q
      unfold c82_mode computeEfficiency
      simp only [hh]
    refine ⟨by rw [hm p]; simp, ?_⟩
    intro hn
    have hm' : ∀ q : Pass K, (c82_mode a q).2 = max (min (b + s * q.temp) 1) (-1) := by
      intro q
      rw [hm q, hn]
      rfl
    rw [hm' p]
    refine ⟨le_max_right _ _, max_le (min_le_right _ _) (by linarith), ?_, ?_⟩
    · intro h1 h2
      rw [min_eq_left h2, max_eq_left h1]
    · intro q hs hq
      rw [hm' q]
      have : s * p.temp ≤ s * q.temp := mul_le_mul_of_nonneg_left hq hs
      exact max_le_max (min_le_min (by linarith) le_rfl) le_rfl
  · intro hh
    unfold c82_mode computeEfficiency
    simp only [hh]
    refine ⟨trivial, ?_⟩
    intro hn
    rw [hn]
    rfl
  · intro v hv
    unfold c82_mode computeEfficiency
    cases a.hot with
    | none => simp only [hv]; rfl
    | some b => simp only [hv]; rfl

/-- **C82, the source vector.** When the node at the exit is given a flow, the source of that port is its molar rate and the other
is zero, if the mass of the pass is at least DBL_EPSILON kg and kmol. -/
theorem c82_source (a : Adsorber K) (p : Pass K) (k : ℕ) (r : K) (hg : (updateFluid a p).given = some (k, r))
    (h1 : dblEps ≤ |(updateFluid a p).bed.mass|) (hw : 0 < p.mw) (h2 : dblEps * p.mw ≤ |(updateFluid a p).bed.mass|) :
    (updateFluid a p).bed.source k = r / p.mw ∧ (∀ j, j ≠ k → (updateFluid a p).bed.source j = 0) := by
  by_cases hd : dblEps < p.dt
  · by_cases hr : eps100 < |(sorb a p).1.rate|
    · have hu : updateFluid a p = ⟨{ (sorb a p).1 with source := sourceOf (sorb a p).1 p }, (sorb a p).2,
          some (exitPort p.flow, (sorb a p).1.rate)⟩ := by
        unfold updateFluid
        rw [if_pos hd]
        dsimp only
        rw [if_pos hr]
      rw [hu] at hg h1 h2 ⊢
      dsimp only at hg h1 h2 ⊢
      obtain ⟨rfl, rfl⟩ := Prod.mk.inj (Option.some.inj hg)
      refine ⟨?_, fun j hj => if_neg hj⟩
      unfold sourceOf
      rw [if_pos rfl]
      congr 1
      have hm : (0 : K) < |(sorb a p).1.mass| := lt_of_lt_of_le dblEps_pos h1
      unfold sorbWeight
      rw [innerLimit_of_ge h1, innerLimit_of_ge ((le_div_iff₀ hw).2 h2)]
      field_simp
    · exfalso
      unfold updateFluid at hg
      rw [if_pos hd] at hg
      dsimp only at hg
      rw [if_neg hr] at hg
      exact absurd hg (by simp)
  · rw [(bed_idle a p hd).2.1] at hg
    exact absurd hg (by simp)

/-- **C82, stale sources (failure).** Whenever a pass gives no node a flow, the source vector of an earlier pass stays.  A bed
that is full and only adsorbs keeps it for ever, over any number of passes: the solution of the network goes on taking the
molar flow of the last adsorption from the node while no mass is taken. -/
theorem c82_stale (a : Adsorber K) :
    (∀ p : Pass K, (updateFluid a p).given = none → (updateFluid a p).bed.source = a.source) ∧
    (∀ ps : List (Pass K), a.hot = none → a.cycle = false → a.maxMass ≤ a.adsorbed →
      (run a ps).source = a.source ∧ (run a ps).adsorbed = a.adsorbed ∧ c82_takenAll a ps = 0) := by
  have hone : ∀ (b : Adsorber K) (p : Pass K), (updateFluid b p).given = none → (updateFluid b p).bed.source = b.source := by
    intro b p hg
    by_cases hd : dblEps < p.dt
    · by_cases hr : eps100 < |(sorb b p).1.rate|
      · exfalso
        unfold updateFluid at hg
        rw [if_pos hd] at hg
        dsimp only at hg
        rw [if_pos hr] at hg
        exact absurd hg (by simp)
      · unfold updateFluid
        rw [if_pos hd]
        dsimp only
        rw [if_neg hr]
        exact (sorb_eq b p).2.2.2.1
    · unfold updateFluid
      rw [if_neg hd]
  refine ⟨hone a, ?_⟩
  intro ps
  induction ps generalizing a with
  | nil => intro _ _ _; exact ⟨rfl, rfl, rfl⟩
  | cons p ps ih =>
    intro hh hc hm
    have hmode : (c82_mode a p).1 = false := by rw [((c82_mode_law a p).2.1 hh).1, hc]
    have hst : c82_stored a p = 0 := by
      unfold c82_stored
      rw [hmode]
      simp only [Bool.false_eq_true, if_false]
      unfold adsorbMass
      apply max_eq_right
      exact le_trans (min_le_right _ _) (le_trans (min_le_right _ _) (by linarith))
    have had : (updateFluid a p).bed.adsorbed = a.adsorbed := by
      by_cases hd : dblEps < p.dt
      · rw [bed_adsorbed a p hd, hst, add_zero]
      · exact (bed_idle a p hd).1
    have hgiven : (updateFluid a p).given = none := by
      by_cases hd : dblEps < p.dt
      · have hr : ¬ eps100 < |(sorb a p).1.rate| := by
          rw [(sorb_eq a p).2.2.1, hst]
          have := dblEps_pos (K := K)
          simp only [neg_zero, zero_div, abs_zero, not_lt, eps100]
          positivity
        unfold updateFluid
        rw [if_pos hd]
        dsimp only
        rw [if_neg hr]
      · exact (bed_idle a p hd).2.1
    have hkeep : (updateFluid a p).bed.hot = none ∧ (updateFluid a p).bed.cycle = false := by
      have hs : (sorb a p).1.hot = none ∧ (sorb a p).1.cycle = false := by
        unfold sorb computeEfficiency
        simp only [hh, hc, Bool.false_eq_true, if_false]
        unfold adsorb
        exact ⟨rfl, rfl⟩
      unfold updateFluid
      split_ifs with hd
      · dsimp only
        split_ifs <;> exact hs
      · exact ⟨hh, hc⟩
    have hi := ih (updateFluid a p).bed hkeep.1 hkeep.2 (by rw [bed_max, had]; exact hm)
    have htk : c82_taken a p = 0 := by unfold c82_taken; rw [hgiven]
    refine ⟨hi.1.trans (hone a p hgiven), hi.2.1.trans had, ?_⟩
    show c82_taken a p + c82_takenAll (updateFluid a p).bed ps = 0
    rw [htk, hi.2.2, add_zero]

/-! ## Trace compounds -/

/-- The rate at which a compound comes in with the stream. -/
def c82_inlet (p : Pass K) (g : TcConfig K) (t : Tc K) (i : ℕ) : K := t.frac i * p.flux * g.mw i

omit [IsStrictOrderedRing K] in
private theorem adsorb_trace (a : Adsorber K) (p : Pass K) (g : TcConfig K) (t : Tc K) (hd : dblEps < p.dt)
    (hm : (c82_mode a p).1 = false) (htc : p.tc = some (g, t)) :
    (updateFluid a p).bed.tcAdsorbed = (adsorbTc a p.dt p.flux g t).1 ∧
    (updateFluid a p).tc = some (adsorbTc a p.dt p.flux g t).2 := by
  have hk := efficiency_keeps { a with
    rate := 0
    mass := 0 } p.temp
  have he : ∀ i, tcEfficiencyNow (computeEfficiency { a with
      rate := 0
      mass := 0 } p.temp).1 i = tcEfficiencyNow a i := by
    intro i
    unfold tcEfficiencyNow
    rw [hk.2.2.2.2.2.1, hk.2.2.2.2.2.2.1, hk.2.2.2.2.2.2.2]
  have hs : (sorb a p).1.tcAdsorbed = (adsorbTc a p.dt p.flux g t).1 ∧
      (sorb a p).2 = some (adsorbTc a p.dt p.flux g t).2 := by
    unfold c82_mode at hm
    dsimp only at hm
    unfold sorb
    dsimp only
    rw [if_neg (by rw [hm]; simp)]
    unfold adsorb adsorbTc tcRate
    simp only [htc, Option.map_some, he, hk.2.2.2.2.2.1, and_self]
  unfold updateFluid
  rw [if_pos hd]
  dsimp only
  split_ifs <;> exact hs

/-- **C82, trace compounds with forward flow.** Of a trace compound the bed stores its efficiency now of what comes in, and the
stream leaves with the rest; only a rest below a mole fraction of DBL_EPSILON is dropped.  The efficiency now is the given one
times the part of the capacity that is free, so that the free part shrinks geometrically; it is the given one, without limit, if
the capacity is at most DBL_EPSILON. -/
theorem c82_trace (a : Adsorber K) (p : Pass K) (g : TcConfig K) (t : Tc K) (hd : dblEps < p.dt)
    (hm : (c82_mode a p).1 = false) (htc : p.tc = some (g, t)) (hf : 0 < p.flux) (i : ℕ) (hi : i < g.n) (hw : 0 < g.mw i) :
    (∀ e, (if dblEps < a.tcMax i then e = a.tcEfficiency i * max 0 (1 - a.tcAdsorbed i / a.tcMax i)
        else e = a.tcEfficiency i) → dblEps < e →
      (updateFluid a p).bed.tcAdsorbed i = a.tcAdsorbed i + e * c82_inlet p g t i * p.dt ∧
      ∃ u, (updateFluid a p).tc = some u ∧
        (dblEps ≤ t.frac i * (1 - e) → u.frac i * p.flux * g.mw i * p.dt =
          c82_inlet p g t i * p.dt - ((updateFluid a p).bed.tcAdsorbed i - a.tcAdsorbed i)) ∧
        (t.frac i * (1 - e) < dblEps → u.frac i = 0)) ∧
    (dblEps < a.tcMax i → a.tcAdsorbed i ≤ a.tcMax i → dblEps < a.tcEfficiency i * (1 - a.tcAdsorbed i / a.tcMax i) →
      a.tcMax i - (updateFluid a p).bed.tcAdsorbed i =
        (a.tcMax i - a.tcAdsorbed i) * (1 - a.tcEfficiency i * c82_inlet p g t i * p.dt / a.tcMax i)) := by
  obtain ⟨h1, h2⟩ := adsorb_trace a p g t hd hm htc
  have hstored : ∀ e, (if dblEps < a.tcMax i then e = a.tcEfficiency i * max 0 (1 - a.tcAdsorbed i / a.tcMax i)
        else e = a.tcEfficiency i) → e = tcEfficiencyNow a i := by
    intro e he
    unfold tcEfficiencyNow
    by_cases hx : dblEps < a.tcMax i
    · rw [if_pos hx] at he ⊢
      have h0 : a.tcMax i ≠ 0 := (lt_trans dblEps_pos hx).ne'
      rw [he, sub_div, div_self h0]
    · rw [if_neg hx] at he ⊢
      exact he
  have hads : ∀ e, e = tcEfficiencyNow a i → dblEps < e →
      (updateFluid a p).bed.tcAdsorbed i = a.tcAdsorbed i + e * c82_inlet p g t i * p.dt := by
    intro e he hpos
    rw [h1]
    unfold adsorbTc tcRate
    dsimp only
    rw [if_pos hi, ← he, if_pos hpos]
    show _ = a.tcAdsorbed i + e * (t.frac i * p.flux * g.mw i) * p.dt
    unfold Tc.updateMasses
    ring
  constructor
  · intro e he hpos
    have he' := hstored e he
    have hst := hads e he' hpos
    refine ⟨hst, _, h2, ?_, ?_⟩
    · intro hbig
      rw [hst]
      have hfr : (adsorbTc a p.dt p.flux g t).2.frac i = t.frac i * (1 - e) := by
        unfold adsorbTc Tc.updateMoleFractions tcRate Tc.updateMasses
        dsimp only
        rw [if_pos hf]
        rw [if_pos hi, ← he', if_pos hpos]
        have hx : (t.frac i * p.flux * g.mw i - t.frac i * p.flux * g.mw i * e) / p.flux / g.mw i = t.frac i * (1 - e) := by
          field_simp
        rw [hx, if_neg (not_lt.2 hbig)]
      rw [hfr]
      unfold c82_inlet
      ring
    · intro hsmall
      unfold adsorbTc Tc.updateMoleFractions tcRate Tc.updateMasses
      dsimp only
      rw [if_pos hf]
      rw [if_pos hi, ← he', if_pos hpos]
      have hx : (t.frac i * p.flux * g.mw i - t.frac i * p.flux * g.mw i * e) / p.flux / g.mw i = t.frac i * (1 - e) := by
        field_simp
      rw [hx, if_pos hsmall]
  · intro hx hc hpos
    have h0 : 0 < a.tcMax i := lt_trans dblEps_pos hx
    have hfree : 0 ≤ 1 - a.tcAdsorbed i / a.tcMax i := by
      rw [sub_nonneg, div_le_one h0]
      exact hc
    have he := hstored (a.tcEfficiency i * (1 - a.tcAdsorbed i / a.tcMax i)) (by rw [if_pos hx, max_eq_right hfree])
    rw [hads _ he hpos]
    field_simp
    ring

/-- **C82, trace compounds with reverse flow (failure).** When the flow is reversed the molar flow that the trace compounds are
given is negative.  The bed then loses what it should gain, below zero if it was clean, and the stream passes with its mole
fractions unchanged. -/
theorem c82_trace_reverse (a : Adsorber K) (p : Pass K) (g : TcConfig K) (t : Tc K) (hd : dblEps < p.dt)
    (hm : (c82_mode a p).1 = false) (htc : p.tc = some (g, t)) (hf : p.flux < 0) (i : ℕ) (hi : i < g.n)
    (he : dblEps < a.tcEfficiency i) (hc : a.tcAdsorbed i = 0) (ht : dblEps ≤ t.frac i) (hw : 0 < g.mw i) :
    (updateFluid a p).bed.tcAdsorbed i = -(a.tcEfficiency i * (t.frac i * |p.flux| * g.mw i) * p.dt) ∧
    (updateFluid a p).bed.tcAdsorbed i < 0 ∧
    ∃ u, (updateFluid a p).tc = some u ∧ u.frac i = t.frac i := by
  obtain ⟨h1, h2⟩ := adsorb_trace a p g t hd hm htc
  have hnow : tcEfficiencyNow a i = a.tcEfficiency i := by
    unfold tcEfficiencyNow
    split_ifs with hx
    · have h0 : a.tcMax i ≠ 0 := (lt_trans dblEps_pos hx).ne'
      rw [hc, sub_zero, div_self h0, max_eq_right zero_le_one, mul_one]
    · rfl
  have hval : (updateFluid a p).bed.tcAdsorbed i = -(a.tcEfficiency i * (t.frac i * |p.flux| * g.mw i) * p.dt) := by
    rw [h1]
    unfold adsorbTc tcRate Tc.updateMasses
    dsimp only
    rw [if_pos hi, hnow, if_pos he, hc, abs_of_neg hf]
    ring
  refine ⟨hval, ?_, _, h2, ?_⟩
  · rw [hval, neg_lt_zero]
    have e0 := lt_trans dblEps_pos he
    have t0 : 0 < t.frac i := lt_of_lt_of_le dblEps_pos ht
    have f0 : 0 < |p.flux| := abs_pos.2 hf.ne
    have d0 : 0 < p.dt := lt_trans dblEps_pos hd
    positivity
  · unfold adsorbTc Tc.updateMoleFractions Tc.updateMasses
    dsimp only
    rw [if_neg (not_lt.2 hf.le), if_neg (not_lt.2 ht)]

/-! ## Malfunctions -/

/-- **C82, malfunctions (failure).** The malfunction value is not limited.  In the desorption cycle of an adsorber of constant
efficiency any value from 0 to 1, which is what an efficiency is, stops the desorption; and a value above 1 takes more gas from
the exit than comes in. -/
theorem c82_malf (a : Adsorber K) (p : Pass K) (v : K) (hd : dblEps < p.dt) (hh : a.hot = none) (hv : a.malf = some v) :
    (a.cycle = true → 0 ≤ v → 0 ≤ a.desorbRate →
      (updateFluid a p).bed.adsorbed = a.adsorbed ∧ (updateFluid a p).given = none) ∧
    (a.cycle = false → 1 < v → 0 < p.fraction → p.flow ≠ 0 → p.fraction * |p.flow| * p.dt * v ≤ a.maxRate * p.dt →
      p.fraction * |p.flow| * p.dt * v ≤ a.maxMass - a.adsorbed →
      p.fraction * |p.flow| * p.dt < (updateFluid a p).bed.adsorbed - a.adsorbed) := by
  have hp : 0 < p.dt := lt_trans dblEps_pos hd
  have hmv := (c82_mode_law a p).2.2 v hv
  have hmc := ((c82_mode_law a p).2.1 hh).1
  constructor
  · intro hc h0 hr
    have hst : c82_stored a p = 0 := by
      unfold c82_stored desorbMass
      rw [hmc, hc, if_pos rfl, hmv]
      have : -v * a.desorbRate * p.dt ≤ 0 := by
        have : 0 ≤ v * a.desorbRate * p.dt := by positivity
        linarith
      rw [max_eq_right (le_trans (min_le_right _ _) this), neg_zero]
    refine ⟨by rw [bed_adsorbed a p hd, hst, add_zero], ?_⟩
    have hr : ¬ eps100 < |(sorb a p).1.rate| := by
      rw [(sorb_eq a p).2.2.1, hst]
      have := dblEps_pos (K := K)
      simp only [neg_zero, zero_div, abs_zero, not_lt, eps100]
      positivity
    unfold updateFluid
    rw [if_pos hd]
    dsimp only
    rw [if_neg hr]
  · intro hc h1 hf hw hr hm
    rw [bed_adsorbed a p hd, add_sub_cancel_left]
    unfold c82_stored adsorbMass
    rw [hmc, hc, if_neg (by simp), hmv]
    have hfl : 0 < |p.flow| := abs_pos.2 hw
    have hin : 0 < p.fraction * |p.flow| * p.dt := by positivity
    refine lt_of_lt_of_le ?_ (le_max_left _ _)
    rw [min_eq_left (le_min hr hm)]
    exact lt_mul_of_one_lt_right hin h1

/-! ## Examples -/

/-- An adsorber of capacity 1 with efficiency 1/2. -/
private def exBed : Adsorber ℚ where
  efficiency := 1 / 2
  maxRate := 10
  maxMass := 1
  desorbRate := 1
  hot := none
  tcEfficiency := fun _ => 1 / 2
  tcMax := fun _ => 1
  malf := none
  cycle := false
  adsorbed := 0
  mass := 0
  rate := 0
  source := fun _ => 0
  tcAdsorbed := fun _ => 0

/-- Four kilograms per second of half gas for one second. -/
private def exPass (flow flux : ℚ) : Pass ℚ where
  dt := 1
  flow := flow
  flux := flux
  temp := 300
  fraction := 1 / 2
  mw := 4
  tc := some (⟨1, fun _ => 2⟩, ⟨fun _ => 0, fun _ => 1 / 100⟩)

/-- The first pass fills the bed and takes a kilogram from port 1. -/
example : (updateFluid exBed (exPass 4 1)).bed.adsorbed = 1 ∧ (updateFluid exBed (exPass 4 1)).given = some (1, -1) ∧
    (updateFluid exBed (exPass 4 1)).bed.source 1 = -1 / 4 ∧ (updateFluid exBed (exPass 4 1)).bed.tcAdsorbed 0 = 1 / 100 ∧
    accepted exBed 300 = true := by
  decide +kernel

/-- Then the source stays: by `c82_stale` for ever. -/
example (ps : List (Pass ℚ)) : (run (updateFluid exBed (exPass 4 1)).bed ps).source 1 = -1 / 4 ∧
    c82_takenAll (updateFluid exBed (exPass 4 1)).bed ps = 0 := by
  have h := (c82_stale (updateFluid exBed (exPass 4 1)).bed).2 ps (by decide +kernel) (by decide +kernel)
    (by decide +kernel)
  exact ⟨by rw [h.1]; decide +kernel, h.2.2⟩

/-- The reverse flow takes from the clean bed what it should give it. -/
example : (updateFluid exBed (exPass (-4) (-1))).bed.tcAdsorbed 0 = -1 / 100 ∧
    (updateFluid exBed (exPass (-4) (-1))).given = some (0, -1) := by
  decide +kernel

/-- A hot adsorber that desorbs above 200 K. -/
private def exHot : Adsorber ℚ :=
  { exBed with
    hot := some (2, -1 / 100)
    adsorbed := 1 / 4 }

example : c82_mode exHot (exPass 4 1) = (true, -1) ∧ (updateFluid exHot (exPass 4 1)).bed.adsorbed = 0 ∧
    (updateFluid exHot (exPass 4 1)).given = some (1, 1 / 4) := by
  decide +kernel

/-- A malfunction value of 2 takes twice what comes in. -/
example : (updateFluid { exBed with
    malf := some 2
    maxMass := 100 } (exPass 4 1)).bed.adsorbed = 4 := by
  decide +kernel

end Gunns.Props
