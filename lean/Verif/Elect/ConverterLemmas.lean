import Verif.Elect.ConverterSpec
import Mathlib.Tactic.Ring
import Mathlib.Tactic.Linarith
import Mathlib.Tactic.FieldSimp
import Mathlib.Tactic.LinearCombination

/-!
# Lemmas about converters: sources, power and bias
-/

set_option linter.unusedSectionVars false

namespace Gunns.Conv

open Gunns Gunns.Elements

variable {K : Type _} [Field K] [LinearOrder K] [IsStrictOrderedRing K]

theorem limitRange_id {a x b : K} (h1 : a ≤ x) (h2 : x ≤ b) : limitRange a x b = x := by
  unfold limitRange
  rw [min_eq_left h2, max_eq_left h1]

theorem limitRange_mem (a x b : K) (h : a ≤ b) : a ≤ limitRange a x b ∧ limitRange a x b ≤ b := by
  unfold limitRange
  exact ⟨le_max_right _ _, max_le (min_le_right _ _) h⟩

theorem condLimit_pos : (0 : K) < condLimit := by unfold condLimit; positivity

theorem isVoltage_iff (r : Reg) : r.isVoltage = true ↔ r.Holds := by
  unfold Reg.isVoltage Reg.Holds
  cases r <;> simp

theorem tripped_iff (o : Out K) :
    o.tripped = false ↔ o.ov.tripped = false ∧ o.uv.tripped = false ∧ o.oc.tripped = false := by
  unfold Out.tripped
  cases o.ov.tripped <;> cases o.uv.tripped <;> cases o.oc.tripped <;> simp

theorem on_iff (o : Out K) : (o.enabled && o.available && !o.tripped) = true ↔ o.On := by
  unfold Out.On
  rw [← tripped_iff]
  cases o.enabled <;> cases o.available <;> cases o.tripped <;> simp

/-- The flux of the output. -/
theorem computeFlux_eq (o : Out K) : o.computeFlux = { o with flux := max 0 o.delivered } := by
  unfold Out.computeFlux Out.delivered
  rw [mul_comm]

/-! ## The contributions -/

/-- The link with its load estimate. -/
theorem estimateLoad_eq (o : Out K) :
    ∃ f r, o.estimateLoad = { o with
      flux := f
      resistance := r } ∧ f = max 0 o.delivered ∧
      (dblEps < f → dblEps < o.pot → r = o.pot / f) := by
  unfold Out.estimateLoad
  rw [computeFlux_eq]
  refine ⟨_, _, rfl, rfl, ?_⟩
  intro h1 h2
  exact if_pos ⟨h1, h2⟩

/-- An output that is off contributes nothing. -/
theorem contribute_off (sq : K → K) (o : Out K) (h : ¬ o.On) :
    (o.contribute sq).adm = 0 ∧ (o.contribute sq).source = 0 ∧ (o.contribute sq).sourceVoltage = 0 := by
  obtain ⟨f, r, he, -⟩ := estimateLoad_eq o
  unfold Out.contribute
  rw [he]
  have hoff : (o.enabled && o.available && !o.tripped) = false := by
    rw [Bool.eq_false_iff]
    exact fun g => h ((on_iff o).mp g)
  have e : (({ o with
      flux := f
      resistance := r } : Out K).enabled && ({ o with
      flux := f
      resistance := r } : Out K).available && !({ o with
      flux := f
      resistance := r } : Out K).tripped) = false := hoff
  dsimp only at e ⊢
  rw [e]
  have z : limitRange (0 : K) 0 condLimit = 0 := limitRange_id le_rfl condLimit_pos.le
  cases o.reverse <;> simp [z]

/-- What an output that is on contributes. -/
theorem contribute_on (sq : K → K) (o : Out K) (h : o.On) :
    ∃ r, (dblEps < max 0 o.delivered → dblEps < o.pot → r = o.pot / max 0 o.delivered) ∧
    let s := ({ o with resistance := r } : Out K).sources sq
    let g := limitRange 0 (if o.reverse then 0 else s.1) condLimit
    o.contribute sq = { o with
      flux := max 0 o.delivered
      resistance := r
      sourceVoltage := s.2.1
      adm := g
      source := s.2.1 * g + s.2.2 } := by
  obtain ⟨f, r, he, hf, hr⟩ := estimateLoad_eq o
  subst hf
  refine ⟨r, hr, ?_⟩
  unfold Out.contribute
  rw [he]
  have hon := (on_iff o).mpr h
  have e : (({ o with
      flux := max 0 o.delivered
      resistance := r } : Out K).enabled && ({ o with
      flux := max 0 o.delivered
      resistance := r } : Out K).available && !({ o with
      flux := max 0 o.delivered
      resistance := r } : Out K).tripped) = true := hon
  dsimp only at e ⊢
  rw [e]
  rfl

theorem block_id (o : Out K) (x : K) (h : o.blockFlag = false) : o.block x = x := by
  unfold Out.block
  rw [h]
  exact if_neg Bool.false_ne_true

theorem sources_volt (sq : K → K) (o : Out K) (hr : o.reg.Holds) (hl : o.limit ≠ .oc) :
    o.sources sq = (o.block o.conductance, o.target, 0) := by
  unfold Out.sources
  rw [if_pos ((isVoltage_iff _).mpr hr), if_neg hl]
  unfold Out.target
  rcases hr with h | h <;> rw [h] <;> simp

theorem sources_oc (sq : K → K) (o : Out K) (hr : o.reg.Holds) (hl : o.limit = .oc) :
    o.sources sq = (fltEps, 0, o.oc.limit) := by
  unfold Out.sources
  rw [if_pos ((isVoltage_iff _).mpr hr), if_pos hl]

/-! ## Power -/

/-- The power asked of the input. -/
theorem computePower_spec (o : Out K) (hs : o.Sound) (hg : o.ground = false) (hv : o.powerValid = true) :
    let I := max 0 o.delivered;
    o.computePower.1 * o.efficiency = I * o.pot + I * I / o.conductance ∧
    o.computePower.2 = { o with
      flux := I
      power := I * o.pot
      channelLoss := I * I / o.conductance
      loss := o.computePower.1 - I * o.pot } := by
  obtain ⟨h1, h2, h3⟩ := hs
  have hc : max dblEps o.conductance = o.conductance := max_eq_right h1
  have he : limitRange dblEps o.efficiency 1 = o.efficiency := limitRange_id h2 h3
  have hpos : o.efficiency ≠ 0 := (dblEps_pos.trans_le h2).ne'
  have hif : (o.ground || !o.powerValid) = false := by rw [hg, hv]; rfl
  unfold Out.computePower
  rw [hif, computeFlux_eq]
  dsimp only
  rw [if_neg Bool.false_ne_true, hc, he]
  exact ⟨div_mul_cancel₀ _ hpos, rfl⟩

theorem computePower_pot (o : Out K) : o.computePower.2.pot = o.pot ∧ o.computePower.2.adm = o.adm ∧
    o.computePower.2.source = o.source ∧ o.computePower.2.powerValid = o.powerValid := by
  unfold Out.computePower
  split
  · exact ⟨rfl, rfl, rfl, rfl⟩
  · exact ⟨rfl, rfl, rfl, rfl⟩

/-! ## Bias -/

/-- What `updateBias` leaves alone, and when it does not reject. -/
theorem updateBias_pass (o : Out K) (r : SolRes) (n : Nat) (b : Bool)
    (h : (o.updateBias r n b).1 ≠ .reject) : o.updateBias r n b = (r, o) := by
  have hrec : ({ o with reverse := o.reverse } : Out K) = o := rfl
  unfold Out.updateBias at h ⊢
  dsimp only at h ⊢
  by_cases h1 : o.limit = .oc ∨ (o.limit = .no ∧ o.reg.isVoltage = false)
  · rw [if_pos h1] at h ⊢
    dsimp only at h ⊢
    by_cases h2 : o.reverse = false
    · rw [if_neg (by rw [h2]; simp)]
      rw [← h2, hrec]
    · rw [if_pos (by simpa using h2)] at h
      exact absurd rfl h
  · rw [if_neg h1] at h ⊢
    by_cases h3 : o.pot ≤ o.sourceVoltage
    · rw [if_pos h3] at h ⊢
      dsimp only at h ⊢
      by_cases h2 : o.reverse = false
      · rw [if_neg (by rw [h2]; simp)]
        rw [← h2, hrec]
      · rw [if_pos (by simpa using h2)] at h
        exact absurd rfl h
    · rw [if_neg h3] at h ⊢
      by_cases h4 : n > 0 ∧ o.reverseFlips < o.flipsLimit ∧ (o.reverse || b) = false
      · rw [if_pos h4] at h
        have : o.reverse = false := by
          have := h4.2.2
          cases ho : o.reverse
          · rfl
          · rw [ho] at this; simp at this
        dsimp only at h
        rw [if_pos (by rw [this]; decide)] at h
        exact absurd rfl h
      · rw [if_neg h4] at h ⊢
        rw [if_neg (by simp)]

/-- An output acting as voltage source that does not flip is on the right side, or cannot flip any more. -/
theorem updateBias_state (o : Out K) (r : SolRes) (n : Nat) (hn : 0 < n)
    (hreg : o.reg.isVoltage = true) (hl : o.limit ≠ .oc)
    (h : (o.updateBias r n false).1 ≠ .reject) :
    (o.reverse = false ∧ o.pot ≤ o.sourceVoltage) ∨ (o.reverse = true ∧ o.sourceVoltage < o.pot) ∨
    (o.reverse = false ∧ o.sourceVoltage < o.pot ∧ o.flipsLimit ≤ o.reverseFlips) := by
  unfold Out.updateBias at h
  dsimp only at h
  have h1 : ¬ (o.limit = .oc ∨ (o.limit = .no ∧ o.reg.isVoltage = false)) := by
    rintro (g | ⟨-, g⟩)
    · exact hl g
    · rw [hreg] at g; cases g
  rw [if_neg h1] at h
  by_cases h3 : o.pot ≤ o.sourceVoltage
  · rw [if_pos h3] at h
    left
    refine ⟨?_, h3⟩
    by_contra h2
    rw [if_pos (by simpa using h2)] at h
    exact h rfl
  · rw [if_neg h3] at h
    have h3' := not_le.mp h3
    cases hrev : o.reverse with
    | true => exact Or.inr (Or.inl ⟨rfl, h3'⟩)
    | false =>
      right; right
      refine ⟨rfl, h3', ?_⟩
      by_contra hf
      have hc : n > 0 ∧ o.reverseFlips < o.flipsLimit ∧ (o.reverse || false) = false :=
        ⟨hn, not_le.mp hf, by rw [hrev]; rfl⟩
      rw [if_pos hc] at h
      dsimp only at h
      rw [if_pos (by rw [hrev]; decide)] at h
      exact h rfl

/-- The first bias check of `judge`. -/
theorem judge_first (sq : K → K) (o : Out K) (n : Nat) (h : (o.judge sq n).1 ≠ .reject) :
    (o.updateBias .confirm n false).1 ≠ .reject := by
  intro g
  unfold Out.judge at h
  dsimp only at h
  rw [if_neg (fun q => q.2 g)] at h
  exact h g

end Gunns.Conv
