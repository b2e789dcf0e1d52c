import Verif.Fluid.Sorption
import Mathlib.Algebra.BigOperators.Field
import Mathlib.Algebra.Order.BigOperators.Group.Finset
import Mathlib.Tactic.Linarith
import Mathlib.Tactic.Ring
import Mathlib.Tactic.FieldSimp
import Mathlib.Tactic.LinearCombination
import Mathlib.Tactic.Positivity

/-!
# Lemmas for the sorption beds
-/

set_option linter.unusedSectionVars false

namespace Gunns.Sorption

open Gunns.Interp (limitRange)

variable {K : Type*} [Field K] [LinearOrder K] [IsStrictOrderedRing K]

/-! ## Specification -/

/-- The value at an optional index, 0 if there is none. -/
def opt (f : ℕ → K) : Option ℕ → K
  | none => 0
  | some k => f k

/-- A rate, or 0 where it is too small to be exchanged. -/
def dead (a : K) : K := if |a| ≤ dblEps then 0 else a

/-- The bulk compounds a sorbate writes. -/
def bulkOf (p : Props K) : List ℕ := p.fluid.toList ++ p.offgas.filterMap (·.fluid)

/-- The trace compounds a sorbate writes. -/
def traceOf (p : Props K) : List ℕ := p.tc.toList ++ p.offgas.filterMap (·.tc)

/-- The stream carries `flow`: its masses are the mass flow rates of its compounds, and its fractions agree with them. -/
structure Carries (c : Compounds K) (s : Stream K) (flow : K) : Prop where
  mass_nonneg : ∀ k, 0 ≤ s.mass k
  tc_nonneg : ∀ j, 0 ≤ s.tcMass j
  total : flow = ∑ k ∈ Finset.range c.n, s.mass k
  x : ∀ k, flow / s.mw * s.x k * c.mw k = s.mass k
  w : ∀ k, flow * s.w k = s.mass k
  tcX : ∀ j, flow / s.mw * s.tcX j * c.mwTc j = s.tcMass j

/-- The segment agrees with the stream's compounds, and no compound of the stream is written twice. -/
structure Fits (c : Compounds K) (g : Segment K) : Prop where
  volume : 0 < g.volume
  mw : ∀ k, 0 < c.mw k
  mwTc : ∀ j, 0 < c.mwTc j
  present : ∀ k < g.n, (g.props k).fluid ≠ none ∨ (g.props k).tc ≠ none
  inBulk : ∀ k < g.n, ∀ m ∈ bulkOf (g.props k), m < c.n
  ownBulk : ∀ k < g.n, ∀ m, (g.props k).fluid = some m → (g.props k).mw = c.mw m
  ownTc : ∀ k < g.n, ∀ m, (g.props k).tc = some m → (g.props k).mw = c.mwTc m
  interaction : ∀ k < g.n, ∀ o ∈ (g.props k).offgas, 0 ≤ o.interaction
  offgas : ∀ k < g.n, ∀ o ∈ (g.props k).offgas, ∀ m j, o.fluid = some m → o.tc = some j → c.mw m = c.mwTc j
  bulkOnce : ((List.range g.n).flatMap (fun k => bulkOf (g.props k))).Nodup
  tcOnce : ((List.range g.n).flatMap (fun k => traceOf (g.props k))).Nodup

/-- The molecular weight of an offgas compound. -/
def offMw (c : Compounds K) (o : Offgas K) : K :=
  match o.tc with
  | some j => c.mwTc j
  | none => match o.fluid with
    | some k => c.mw k
    | none => 0

/-! ## The loading of a sorbate -/

theorem limitRange_unit (v : K) : 0 ≤ limitRange 0 v 1 ∧ limitRange 0 v 1 ≤ 1 := by
  unfold limitRange
  exact ⟨le_max_right _ _, max_le (min_le_right _ _) zero_le_one⟩

theorem effectiveVolume_mem {g : Segment K} (h : 0 < g.volume) : 0 ≤ effectiveVolume g ∧ effectiveVolume g ≤ g.volume := by
  unfold effectiveVolume
  by_cases hf : g.degradeFlag = true
  · rw [if_pos hf]
    have := limitRange_unit (1 - g.degradeValue)
    exact ⟨mul_nonneg h.le this.1, by nlinarith [this.2]⟩
  · rw [if_neg hf]
    exact ⟨h.le, le_rfl⟩

/-- The rate chosen by `updateLoading`. -/
theorem updateLoading_rate (km dt inFlux desorbLimit : K) (s : Sorbate K) :
    (updateLoading km dt inFlux desorbLimit s).rate
      = if 0 ≤ km * (s.equil - s.loading) then min (km * (s.equil - s.loading)) (limitFraction * inFlux)
        else max (max (-s.loading / dt) (-desorbLimit)) (km * (s.equil - s.loading)) := rfl

theorem updateLoading_loading (km dt inFlux desorbLimit : K) (s : Sorbate K) :
    (updateLoading km dt inFlux desorbLimit s).loading
      = max 0 (s.loading + (updateLoading km dt inFlux desorbLimit s).rate * dt) := rfl

/-- What bounds the rate from above. -/
theorem rate_le {km dt inFlux lim : K} {s : Sorbate K} (hdt : 0 < dt) (hl : 0 ≤ s.loading) (hf : 0 ≤ inFlux)
    (hd : 0 ≤ lim) : (updateLoading km dt inFlux lim s).rate ≤ limitFraction * inFlux := by
  rw [updateLoading_rate]
  have hL : (0 : K) ≤ limitFraction * inFlux := mul_nonneg (by unfold limitFraction; norm_num) hf
  by_cases h : 0 ≤ km * (s.equil - s.loading)
  · rw [if_pos h]
    exact min_le_right _ _
  · rw [if_neg h]
    refine le_trans (max_le (max_le ?_ ?_) (not_le.1 h).le) hL
    · exact div_nonpos_of_nonpos_of_nonneg (by linarith) hdt.le
    · linarith

/-- What bounds the rate from below. -/
theorem neg_le_rate {km dt inFlux lim : K} {s : Sorbate K} (hdt : 0 < dt) (hl : 0 ≤ s.loading) (hf : 0 ≤ inFlux)
    (hd : 0 ≤ lim) : -s.loading ≤ (updateLoading km dt inFlux lim s).rate * dt
      ∧ -lim ≤ (updateLoading km dt inFlux lim s).rate := by
  rw [updateLoading_rate]
  have hL : (0 : K) ≤ limitFraction * inFlux := mul_nonneg (by unfold limitFraction; norm_num) hf
  by_cases h : 0 ≤ km * (s.equil - s.loading)
  · rw [if_pos h]
    have : 0 ≤ min (km * (s.equil - s.loading)) (limitFraction * inFlux) := le_min h hL
    exact ⟨by nlinarith, by linarith⟩
  · rw [if_neg h]
    constructor
    · have h1 : -s.loading / dt ≤ max (max (-s.loading / dt) (-lim)) (km * (s.equil - s.loading)) :=
        le_trans (le_max_left _ _) (le_max_left _ _)
      have h2 : -s.loading / dt * dt = -s.loading := by field_simp
      have h3 := mul_le_mul_of_nonneg_right h1 hdt.le
      rw [h2] at h3
      exact h3
    · exact le_trans (le_max_right _ _) (le_max_left _ _)

theorem loading_exact {km dt inFlux lim : K} {s : Sorbate K} (hdt : 0 < dt) (hl : 0 ≤ s.loading) (hf : 0 ≤ inFlux)
    (hd : 0 ≤ lim) : (updateLoading km dt inFlux lim s).loading
      = s.loading + (updateLoading km dt inFlux lim s).rate * dt := by
  rw [updateLoading_loading, max_eq_right]
  have := (neg_le_rate (km := km) hdt hl hf hd).1
  linarith

/-! ## One exchange with the stream -/

theorem exchange_frac (fl tc : Option ℕ) (a b d mw : K) (s : Stream K) :
    (exchange fl tc a b d mw s).1.x = s.x ∧ (exchange fl tc a b d mw s).1.w = s.w
      ∧ (exchange fl tc a b d mw s).1.mw = s.mw ∧ (exchange fl tc a b d mw s).1.tcX = s.tcX := ⟨rfl, rfl, rfl, rfl⟩

theorem exchange_mass_other {fl tc : Option ℕ} {a b d mw : K} {s : Stream K} {m : ℕ} (h : fl ≠ some m) :
    (exchange fl tc a b d mw s).1.mass m = s.mass m := by
  cases fl with
  | none => rfl
  | some k =>
    have hk : m ≠ k := fun e => h (by rw [e])
    unfold exchange
    dsimp only
    by_cases h1 : d < -dblEps
    · rw [if_pos h1, Function.update_of_ne hk]
    · rw [if_neg h1]
      by_cases h2 : dblEps < d
      · rw [if_pos h2, Function.update_of_ne hk]
      · rw [if_neg h2]

theorem exchange_tc_other {fl tc : Option ℕ} {a b d mw : K} {s : Stream K} {j : ℕ} (h : tc ≠ some j) :
    (exchange fl tc a b d mw s).1.tcMass j = s.tcMass j := by
  cases tc with
  | none => rfl
  | some k =>
    have hk : j ≠ k := fun e => h (by rw [e])
    unfold exchange
    dsimp only
    rw [Function.update_of_ne hk]

/-- What one exchange does to the compound it writes: the amounts are as they were but for the exchanged moles, the change of
    the flow rate is that of the bulk mass, and no more than 99% of the bulk is taken. -/
theorem exchange_own {fl tc : Option ℕ} {a b d mw : K} {s : Stream K} (hmw : 0 < mw) (ha : 0 ≤ a) (hb : 0 ≤ b)
    (hfl : ∀ m, fl = some m → s.mass m = a) (htc : ∀ j, tc = some j → s.tcMass j = b * mw)
    (hsome : fl ≠ none ∨ tc ≠ none) (htc0 : tc = none → b = 0) (hfl0 : fl = none → a = 0)
    (hd : -(d * mw) ≤ limitFraction * (a + b * mw)) :
    opt (exchange fl tc a b d mw s).1.mass fl + opt (exchange fl tc a b d mw s).1.tcMass tc
        = opt s.mass fl + opt s.tcMass tc + dead d * mw
      ∧ (exchange fl tc a b d mw s).2 = opt (exchange fl tc a b d mw s).1.mass fl - opt s.mass fl
      ∧ opt s.mass fl / 100 ≤ opt (exchange fl tc a b d mw s).1.mass fl
      ∧ 0 ≤ opt (exchange fl tc a b d mw s).1.tcMass tc := by
  have hs1 : opt s.mass fl = a := by
    cases fl with
    | none => rw [hfl0 rfl]; rfl
    | some m => exact hfl m rfl
  have hs2 : opt s.tcMass tc = b * mw := by
    cases tc with
    | none => rw [htc0 rfl, zero_mul]; rfl
    | some j => exact htc j rfl
  have eps : (0 : K) < dblEps := dblEps_pos
  rw [hs1, hs2]
  unfold limitFraction at hd
  by_cases h1 : d < -dblEps
  · have hdead : dead d = d := by
      unfold dead
      rw [if_neg]
      rw [not_le, lt_abs]
      right
      linarith
    have hneg : d < 0 := by linarith
    obtain ⟨t, ht⟩ : ∃ t, t = max d (-b) := ⟨_, rfl⟩
    have ht1 : d ≤ t := ht ▸ le_max_left _ _
    have ht2 : -b ≤ t := ht ▸ le_max_right _ _
    have ht3 : t = d ∨ t = -b := by
      rcases max_choice d (-b) with h | h
      · left; rw [ht, h]
      · right; rw [ht, h]
    -- the bulk mass taken is at most 99 percent
    have htake : (-d + t) * mw ≤ 99 / 100 * a := by
      rcases ht3 with h | h
      · rw [h]
        have : (-d + d) * mw = 0 := by ring
        rw [this]; linarith
      · rw [h]
        have : (-d + -b) * mw = -(d * mw) - b * mw := by ring
        rw [this]
        nlinarith [mul_nonneg hb hmw.le]
    have htc_nonneg : 0 ≤ b + t := by linarith
    have emass : ∀ k, fl = some k → (exchange fl tc a b d mw s).1.mass k = a - (-d + t) * mw := by
      intro k hk
      subst hk
      unfold exchange
      dsimp only
      rw [if_pos h1, if_pos h1, Function.update_self, ← ht, max_eq_left (by linarith)]
      ring
    have etc : ∀ j, tc = some j → (exchange fl tc a b d mw s).1.tcMass j = (b + t) * mw := by
      intro j hj
      subst hj
      unfold exchange
      dsimp only
      rw [if_pos h1, Function.update_self, ← ht]
    have eret : (exchange fl tc a b d mw s).2 = opt (fun _ => -(-d + t) * mw) fl := by
      cases fl with
      | none => rfl
      | some k =>
        unfold exchange opt
        dsimp only
        rw [if_pos h1, ht]
    rw [hdead, eret]
    cases fl with
    | none =>
      cases tc with
      | none => exact absurd hsome (by simp)
      | some j =>
        have ha0 := hfl0 rfl
        have e := etc j rfl
        have htd : t = d := by
          rcases ht3 with h | h
          · exact h
          · have : -(d * mw) ≤ 99 / 100 * (b * mw) := by rw [ha0] at hd; linarith
            have h3 : -d ≤ b := by
              by_contra hc
              have : b * mw < -d * mw := mul_lt_mul_of_pos_right (not_le.1 hc) hmw
              nlinarith [mul_nonneg hb hmw.le]
            exact le_antisymm (by rw [h]; linarith) ht1
        simp only [opt]
        rw [e, ha0, htd]
        refine ⟨by ring, by ring, by simp, ?_⟩
        exact mul_nonneg (by linarith [htd ▸ htc_nonneg]) hmw.le
    | some k =>
      have e1 := emass k rfl
      cases tc with
      | none =>
        have hb0 := htc0 rfl
        have htb : t = 0 := by
          rw [ht, hb0, neg_zero]
          exact max_eq_right hneg.le
        simp only [opt]
        rw [e1, hb0, htb]
        refine ⟨by ring, by ring, ?_, le_rfl⟩
        have := htake
        rw [htb] at this
        linarith
      | some j =>
        have e2 := etc j rfl
        simp only [opt]
        rw [e1, e2]
        exact ⟨by ring, by ring, by linarith, mul_nonneg htc_nonneg hmw.le⟩
  · by_cases h2 : dblEps < d
    · have hdead : dead d = d := by
        unfold dead
        rw [if_neg]
        rw [not_le, lt_abs]
        left
        exact h2
      have hpos : 0 < d := by linarith
      rw [hdead]
      cases fl with
      | none =>
        cases tc with
        | none => exact absurd hsome (by simp)
        | some j =>
          have ha0 := hfl0 rfl
          have e : (exchange none (some j) a b d mw s).1.tcMass j = (b + d) * mw := by
            unfold exchange
            dsimp only
            rw [if_neg h1, if_pos h2, Function.update_self]
          have eret : (exchange none (some j) a b d mw s).2 = 0 := rfl
          simp only [opt]
          rw [e, eret, ha0]
          exact ⟨by ring, by ring, by simp, mul_nonneg (by linarith) hmw.le⟩
      | some k =>
        have e1 : (exchange (some k) tc a b d mw s).1.mass k = a + d * mw := by
          unfold exchange
          dsimp only
          rw [if_neg h1, if_pos h2, if_neg h1, if_pos h2, Function.update_self]
        have eret : (exchange (some k) tc a b d mw s).2 = d * mw := by
          unfold exchange
          dsimp only
          rw [if_neg h1, if_pos h2]
        have e2 : opt (exchange (some k) tc a b d mw s).1.tcMass tc = b * mw := by
          cases tc with
          | none =>
            rw [htc0 rfl, zero_mul]; rfl
          | some j =>
            unfold exchange opt
            dsimp only
            rw [if_neg h1, if_pos h2, Function.update_self]
        rw [e2, eret]
        simp only [opt]
        rw [e1]
        exact ⟨by ring, by ring, by nlinarith [mul_pos hpos hmw], mul_nonneg hb hmw.le⟩
    · have hdead : dead d = 0 := by
        unfold dead
        rw [if_pos]
        rw [abs_le]
        exact ⟨not_lt.1 h1, not_lt.1 h2⟩
      have e1 : opt (exchange fl tc a b d mw s).1.mass fl = a := by
        cases fl with
        | none => exact (hfl0 rfl).symm
        | some k =>
          unfold exchange opt
          dsimp only
          rw [if_neg h1, if_neg h2]
          exact hfl k rfl
      have e2 : opt (exchange fl tc a b d mw s).1.tcMass tc = b * mw := by
        cases tc with
        | none => rw [htc0 rfl, zero_mul]; rfl
        | some j =>
          unfold exchange opt
          dsimp only
          rw [if_neg h1, if_neg h2, Function.update_self]
      have e3 : (exchange fl tc a b d mw s).2 = 0 := by
        cases fl with
        | none => rfl
        | some k =>
          unfold exchange
          dsimp only
          rw [if_neg h1, if_neg h2]
      rw [e1, e2, e3, hdead]
      exact ⟨by ring, by ring, by linarith, mul_nonneg hb hmw.le⟩

/-- The sum of the bulk masses changes by the change of the mass written. -/
theorem sum_exchange {fl tc : Option ℕ} {a b d mw : K} {s : Stream K} {n : ℕ} (h : ∀ m, fl = some m → m < n) :
    ∑ k ∈ Finset.range n, (exchange fl tc a b d mw s).1.mass k
      = ∑ k ∈ Finset.range n, s.mass k + (opt (exchange fl tc a b d mw s).1.mass fl - opt s.mass fl) := by
  cases fl with
  | none =>
    have : (exchange none tc a b d mw s).1.mass = s.mass := rfl
    rw [this]
    simp [opt]
  | some m =>
    have hm : m ∈ Finset.range n := Finset.mem_range.2 (h m rfl)
    rw [← Finset.add_sum_erase _ _ hm, ← Finset.add_sum_erase (Finset.range n) s.mass hm]
    have : ∑ k ∈ (Finset.range n).erase m, (exchange (some m) tc a b d mw s).1.mass k
        = ∑ k ∈ (Finset.range n).erase m, s.mass k := by
      refine Finset.sum_congr rfl (fun k hk => ?_)
      exact exchange_mass_other (fun e => (Finset.ne_of_mem_erase hk) (Option.some.inj e).symm)
    rw [this]
    simp only [opt]
    ring

/-! ## The offgas compounds of a sorbate -/

/-- What holds of a change of the stream from `r` to `r'` that writes the bulk compounds `B` and trace compounds `T`. -/
structure Change (n : ℕ) (B T : List ℕ) (r r' : Run K) : Prop where
  x : r'.stream.x = r.stream.x
  w : r'.stream.w = r.stream.w
  mw : r'.stream.mw = r.stream.mw
  tcX : r'.stream.tcX = r.stream.tcX
  mass : ∀ m, m ∉ B → r'.stream.mass m = r.stream.mass m
  tcMass : ∀ j, j ∉ T → r'.stream.tcMass j = r.stream.tcMass j
  flow : ∑ k ∈ Finset.range n, r'.stream.mass k - r'.flow = ∑ k ∈ Finset.range n, r.stream.mass k - r.flow
  keep : ∀ m ∈ B, r.stream.mass m / 100 ≤ r'.stream.mass m
  tc_nonneg : ∀ j ∈ T, 0 ≤ r'.stream.tcMass j

theorem Change.refl (n : ℕ) (r : Run K) : Change n [] [] r r :=
  ⟨rfl, rfl, rfl, rfl, fun _ _ => rfl, fun _ _ => rfl, rfl, fun _ h => absurd h (by simp), fun _ h => absurd h (by simp)⟩

theorem Change.trans {n : ℕ} {B1 B2 T1 T2 : List ℕ} {r r' r'' : Run K} (h1 : Change n B1 T1 r r')
    (h2 : Change n B2 T2 r' r'') (hB : ∀ m ∈ B1, m ∉ B2) (hT : ∀ j ∈ T1, j ∉ T2) :
    Change n (B1 ++ B2) (T1 ++ T2) r r'' where
  x := h2.x.trans h1.x
  w := h2.w.trans h1.w
  mw := h2.mw.trans h1.mw
  tcX := h2.tcX.trans h1.tcX
  mass := fun m hm => by
    rw [List.mem_append, not_or] at hm
    rw [h2.mass m hm.2, h1.mass m hm.1]
  tcMass := fun j hj => by
    rw [List.mem_append, not_or] at hj
    rw [h2.tcMass j hj.2, h1.tcMass j hj.1]
  flow := h2.flow.trans h1.flow
  keep := fun m hm => by
    by_cases h : m ∈ B1
    · rw [h2.mass m (hB m h)]
      exact h1.keep m h
    · rcases List.mem_append.1 hm with h' | h'
      · exact absurd h' h
      · rw [← h1.mass m h]
        exact h2.keep m h'
  tc_nonneg := fun j hj => by
    by_cases h : j ∈ T1
    · rw [h2.tcMass j (hT j h)]
      exact h1.tc_nonneg j h
    · rcases List.mem_append.1 hj with h' | h'
      · exact absurd h' h
      · exact h2.tc_nonneg j h'

/-- The amount of a compound in the stream is not changed by writes of other compounds. -/
theorem Change.opt_mass {n : ℕ} {B T : List ℕ} {r r' : Run K} (h : Change n B T r r') {fl : Option ℕ}
    (hf : ∀ m, fl = some m → m ∉ B) : opt r'.stream.mass fl = opt r.stream.mass fl := by
  cases fl with
  | none => rfl
  | some m => exact h.mass m (hf m rfl)

theorem Change.opt_tc {n : ℕ} {B T : List ℕ} {r r' : Run K} (h : Change n B T r r') {tc : Option ℕ}
    (hf : ∀ m, tc = some m → m ∉ T) : opt r'.stream.tcMass tc = opt r.stream.tcMass tc := by
  cases tc with
  | none => rfl
  | some m => exact h.tcMass m (hf m rfl)

/-- One exchange as a change of the stream. -/
theorem change_exchange {fl tc : Option ℕ} {a b d mw : K} {n : ℕ} {r r' : Run K}
    (he : r'.stream = (exchange fl tc a b d mw r.stream).1) (hf : r'.flow = r.flow + (exchange fl tc a b d mw r.stream).2)
    (hn : ∀ m, fl = some m → m < n)
    (hmw : 0 < mw) (ha : 0 ≤ a) (hb : 0 ≤ b)
    (hfl : ∀ m, fl = some m → r.stream.mass m = a) (htc : ∀ j, tc = some j → r.stream.tcMass j = b * mw)
    (hsome : fl ≠ none ∨ tc ≠ none) (htc0 : tc = none → b = 0) (hfl0 : fl = none → a = 0)
    (hd : -(d * mw) ≤ limitFraction * (a + b * mw)) :
    Change n fl.toList tc.toList r r'
      ∧ opt r'.stream.mass fl + opt r'.stream.tcMass tc = opt r.stream.mass fl + opt r.stream.tcMass tc + dead d * mw := by
  obtain ⟨o1, o2, o3, o4⟩ := exchange_own (s := r.stream) hmw ha hb hfl htc hsome htc0 hfl0 hd
  obtain ⟨x1, x2, x3, x4⟩ := exchange_frac fl tc a b d mw r.stream
  refine ⟨⟨?_, ?_, ?_, ?_, ?_, ?_, ?_, ?_, ?_⟩, ?_⟩
  · rw [he, x1]
  · rw [he, x2]
  · rw [he, x3]
  · rw [he, x4]
  · intro m hm
    rw [he]
    exact exchange_mass_other (fun e => hm (by rw [e]; simp))
  · intro j hj
    rw [he]
    exact exchange_tc_other (fun e => hj (by rw [e]; simp))
  · rw [he, hf, sum_exchange hn, o2]
    ring
  · intro m hm
    have : fl = some m := by simpa using hm
    subst this
    rw [he]
    exact o3
  · intro j hj
    have : tc = some j := by simpa using hj
    subst this
    rw [he]
    exact o4
  · rw [he]
    exact o1

/-- The offgas compounds of a sorbate: each gains what the adsorption gives off. -/
theorem offgas_fold {c : Compounds K} {s : Stream K} {flowIn ads : K} (hs : Carries c s flowIn) (hcm : ∀ k, 0 < c.mw k)
    (hct : ∀ j, 0 < c.mwTc j) (hads : dblEps < ads) (L : List (Offgas K)) :
    ∀ r : Run K, r.stream.x = s.x → r.stream.w = s.w → r.stream.mw = s.mw → r.stream.tcX = s.tcX →
      (∀ o ∈ L, 0 ≤ o.interaction) → (∀ o ∈ L, ∀ m j, o.fluid = some m → o.tc = some j → c.mw m = c.mwTc j) →
      (∀ m ∈ L.filterMap (·.fluid), m < c.n) →
      (L.filterMap (·.fluid)).Nodup → (L.filterMap (·.tc)).Nodup →
      (∀ m ∈ L.filterMap (·.fluid), r.stream.mass m = s.mass m) →
      (∀ j ∈ L.filterMap (·.tc), r.stream.tcMass j = s.tcMass j) →
      let r' := L.foldl (offgasOne c flowIn (flowIn / s.mw) ads) r
      Change c.n (L.filterMap (·.fluid)) (L.filterMap (·.tc)) r r' ∧ r'.sorbs = r.sorbs ∧ r'.heat = r.heat ∧ r'.cap = r.cap
        ∧ ∀ o ∈ L, o.fluid ≠ none ∨ o.tc ≠ none → opt r'.stream.mass o.fluid + opt r'.stream.tcMass o.tc
          = opt r.stream.mass o.fluid + opt r.stream.tcMass o.tc + dead (ads * o.interaction) * offMw c o := by
  induction L with
  | nil =>
    intro r _ _ _ _ _ _ _ _ _ _ _
    exact ⟨Change.refl _ _, rfl, rfl, rfl, fun _ h => absurd h (by simp)⟩
  | cons o L ih =>
    intro r hx hw hmw htcX hI hM hn hB hT hmass htc
    have eps : (0 : K) < dblEps := dblEps_pos
    have hB1 : ∀ m, o.fluid = some m → m ∉ L.filterMap (·.fluid) := by
      intro m hm
      rw [List.filterMap_cons_some hm] at hB
      exact (List.nodup_cons.1 hB).1
    have hT1 : ∀ j, o.tc = some j → j ∉ L.filterMap (·.tc) := by
      intro m hm
      rw [List.filterMap_cons_some hm] at hT
      exact (List.nodup_cons.1 hT).1
    have hBe : (o :: L).filterMap (·.fluid) = o.fluid.toList ++ L.filterMap (·.fluid) := by
      cases h : o.fluid with
      | none => rw [List.filterMap_cons_none h]; rfl
      | some m => rw [List.filterMap_cons_some h]; rfl
    have hTe : (o :: L).filterMap (·.tc) = o.tc.toList ++ L.filterMap (·.tc) := by
      cases h : o.tc with
      | none => rw [List.filterMap_cons_none h]; rfl
      | some m => rw [List.filterMap_cons_some h]; rfl
    rw [hBe] at hB hmass hn ⊢
    rw [hTe] at hT htc ⊢
    have hrate0 : 0 ≤ ads * o.interaction := mul_nonneg (by linarith) (hI o (by simp))
    -- the first compound
    obtain ⟨r1, hr1⟩ : ∃ r1, r1 = offgasOne c flowIn (flowIn / s.mw) ads r o := ⟨_, rfl⟩
    have hstep : Change c.n o.fluid.toList o.tc.toList r r1 ∧ r1.sorbs = r.sorbs ∧ r1.heat = r.heat ∧ r1.cap = r.cap
        ∧ (o.fluid ≠ none ∨ o.tc ≠ none → opt r1.stream.mass o.fluid + opt r1.stream.tcMass o.tc
          = opt r.stream.mass o.fluid + opt r.stream.tcMass o.tc + dead (ads * o.interaction) * offMw c o) := by
      have hm0 : ∀ m, o.fluid = some m → r.stream.mass m = s.mass m := fun m hm => hmass m (by rw [hm]; simp)
      have ht0 : ∀ j, o.tc = some j → r.stream.tcMass j = s.tcMass j := fun m hm => htc m (by rw [hm]; simp)
      by_cases hgo : ((o.fluid.isSome || o.tc.isSome) && decide (dblEps ≤ ads * o.interaction)) = true
      · obtain ⟨e, he⟩ : ∃ e, e = exchange o.fluid o.tc (match o.fluid with
            | none => 0
            | some k => flowIn * r.stream.w k) (match o.tc with
            | none => 0
            | some j => flowIn / s.mw * r.stream.tcX j) (ads * o.interaction) (offMw c o) r.stream := ⟨_, rfl⟩
        have e1 : r1 = { r with
            stream := e.1
            flow := r.flow + e.2 } := by
          rw [hr1, he]
          unfold offgasOne
          dsimp only
          rw [if_pos hgo]
          unfold offMw
          rfl
        have hso : o.fluid ≠ none ∨ o.tc ≠ none := by
          rw [Bool.and_eq_true, Bool.or_eq_true] at hgo
          rcases hgo.1 with h | h
          · left; intro h'; rw [h'] at h; simp at h
          · right; intro h'; rw [h'] at h; simp at h
        have hpos : 0 < offMw c o := by
          unfold offMw
          cases h : o.tc with
          | some j => exact hct j
          | none =>
            cases h' : o.fluid with
            | some k => exact hcm k
            | none => rw [h, h'] at hso; simp at hso
        have hmwo : ∀ m, o.fluid = some m → c.mw m = offMw c o := by
          intro m hm
          unfold offMw
          cases h : o.tc with
          | some j => exact hM o (by simp) m j hm h
          | none => rw [hm]
        have hmwt : ∀ j, o.tc = some j → c.mwTc j = offMw c o := by
          intro j hj
          unfold offMw
          rw [hj]
        have hch := change_exchange (r := r) (r' := r1) (fl := o.fluid) (tc := o.tc) (n := c.n)
          (a := match o.fluid with
            | none => 0
            | some k => flowIn * r.stream.w k)
          (b := match o.tc with
            | none => 0
            | some j => flowIn / s.mw * r.stream.tcX j)
          (d := ads * o.interaction) (mw := offMw c o) (by rw [e1, he]) (by rw [e1, he])
          (fun m hm => hn m (by rw [hm]; simp)) hpos
          (by
            cases h : o.fluid with
            | none => exact le_rfl
            | some k => rw [hw]; simp only []; rw [hs.w]; exact hs.mass_nonneg k)
          (by
            cases h : o.tc with
            | none => exact le_rfl
            | some j =>
              rw [htcX]
              simp only []
              have := hs.tcX j
              have h2 := hs.tc_nonneg j
              rw [← this] at h2
              exact nonneg_of_mul_nonneg_left h2 (hct j))
          (by
            intro m hm
            rw [hm]
            simp only []
            rw [hw, hs.w, hm0 m hm])
          (by
            intro j hj
            rw [ht0 j hj, ← hmwt j hj, ← hs.tcX j, hj]
            simp only []
            rw [htcX])
          hso
          (by intro h; rw [h])
          (by intro h; rw [h])
          (by
            have h1 : 0 ≤ ads * o.interaction * offMw c o := mul_nonneg hrate0 hpos.le
            refine le_trans (by linarith) (mul_nonneg (by unfold limitFraction; norm_num) (add_nonneg ?_ (mul_nonneg ?_ hpos.le)))
            · cases h : o.fluid with
              | none => exact le_rfl
              | some k => rw [hw]; simp only []; rw [hs.w]; exact hs.mass_nonneg k
            · cases h : o.tc with
              | none => exact le_rfl
              | some j =>
                rw [htcX]
                simp only []
                have := hs.tcX j
                have h2 := hs.tc_nonneg j
                rw [← this] at h2
                exact nonneg_of_mul_nonneg_left h2 (hct j))
        refine ⟨hch.1, by rw [e1], by rw [e1], by rw [e1], fun _ => hch.2⟩
      · have e1 : r1 = r := by
          rw [hr1]
          unfold offgasOne
          dsimp only
          rw [if_neg hgo]
        rw [e1]
        refine ⟨⟨rfl, rfl, rfl, rfl, fun _ _ => rfl, fun _ _ => rfl, rfl, ?_, ?_⟩, rfl, rfl, rfl, ?_⟩
        · intro m hm
          have : o.fluid = some m := by simpa using hm
          rw [hm0 m this]
          linarith [hs.mass_nonneg m]
        · intro j hj
          have : o.tc = some j := by simpa using hj
          rw [ht0 j this]
          exact hs.tc_nonneg j
        · intro hso
          have hlt : ads * o.interaction < dblEps := by
            by_contra hc
            apply hgo
            rw [Bool.and_eq_true, Bool.or_eq_true, decide_eq_true_iff]
            refine ⟨?_, not_lt.1 hc⟩
            rcases hso with h | h
            · left; exact Option.isSome_iff_ne_none.2 h
            · right; exact Option.isSome_iff_ne_none.2 h
          have : dead (ads * o.interaction) = 0 := by
            unfold dead
            rw [if_pos]
            rw [abs_of_nonneg hrate0]
            exact hlt.le
          rw [this]
          ring
    obtain ⟨c1, c2, c3, c4, c5⟩ := hstep
    have hr' := ih r1 (by rw [c1.x, hx]) (by rw [c1.w, hw]) (by rw [c1.mw, hmw]) (by rw [c1.tcX, htcX])
      (fun o' ho' => hI o' (List.mem_cons_of_mem _ ho')) (fun o' ho' => hM o' (List.mem_cons_of_mem _ ho'))
      (fun m hm => hn m (List.mem_append_right _ hm))
      (List.nodup_append.1 hB).2.1 (List.nodup_append.1 hT).2.1
      (fun m hm => by
        have h1 : m ∉ o.fluid.toList := fun hc => hB1 m (by simpa using hc) hm
        rw [c1.mass m h1]
        exact hmass m (List.mem_append_right _ hm))
      (fun j hj => by
        have h1 : j ∉ o.tc.toList := fun hc => hT1 j (by simpa using hc) hj
        rw [c1.tcMass j h1]
        exact htc j (List.mem_append_right _ hj))
    have efold : (o :: L).foldl (offgasOne c flowIn (flowIn / s.mw) ads) r
        = L.foldl (offgasOne c flowIn (flowIn / s.mw) ads) r1 := by rw [List.foldl_cons, hr1]
    rw [efold]
    obtain ⟨d1, d2, d3, d4, d5⟩ := hr'
    refine ⟨c1.trans d1 (fun m hm => hB1 m (by simpa using hm)) (fun j hj => hT1 j (by simpa using hj)),
      d2.trans c2, d3.trans c3, d4.trans c4, ?_⟩
    intro o' ho' hso
    rcases List.mem_cons.1 ho' with h | h
    · subst h
      rw [d1.opt_mass hB1, d1.opt_tc hT1]
      exact c5 hso
    · rw [d5 o' h hso]
      have h1 : opt r1.stream.mass o'.fluid = opt r.stream.mass o'.fluid := by
        refine c1.opt_mass (fun m hm hc => ?_)
        exact hB1 m (by simpa using hc) (List.mem_filterMap.2 ⟨o', h, hm⟩)
      have h2 : opt r1.stream.tcMass o'.tc = opt r.stream.tcMass o'.tc := by
        refine c1.opt_tc (fun m hm hc => ?_)
        exact hT1 m (by simpa using hc) (List.mem_filterMap.2 ⟨o', h, hm⟩)
      rw [h1, h2]

/-! ## The sorbates of a segment -/

theorem dead_neg (a : K) : dead (-a) = -dead a := by
  unfold dead
  rw [abs_neg]
  by_cases h : |a| ≤ dblEps
  · rw [if_pos h, if_pos h, neg_zero]
  · rw [if_neg h, if_neg h]

theorem range_flatMap_succ (f : ℕ → List ℕ) (k : ℕ) :
    (List.range (k + 1)).flatMap f = (List.range k).flatMap f ++ f k := by
  rw [List.range_succ, List.flatMap_append]
  simp

theorem once_self {f : ℕ → List ℕ} {n k : ℕ} (h : ((List.range n).flatMap f).Nodup) (hk : k < n) : (f k).Nodup :=
  (List.nodup_flatMap.1 h).1 k (List.mem_range.2 hk)

theorem once_disjoint {f : ℕ → List ℕ} {n j k m : ℕ} (h : ((List.range n).flatMap f).Nodup) (hj : j < k) (hk : k < n)
    (hm : m ∈ f j) : m ∉ f k := by
  intro hc
  have h1 : ((List.range (k + 1)).flatMap f).Nodup := by
    obtain ⟨d, rfl⟩ : ∃ d, n = k + 1 + d := ⟨n - (k + 1), by omega⟩
    rw [List.range_add, List.flatMap_append] at h
    exact (List.nodup_append.1 h).1
  rw [range_flatMap_succ] at h1
  exact (List.nodup_append.1 h1).2.2 m (List.mem_flatMap.2 ⟨j, List.mem_range.2 hj, hm⟩) m hc rfl

theorem nonneg_tc {c : Compounds K} {s : Stream K} {flow : K} (hs : Carries c s flow) (hct : ∀ j, 0 < c.mwTc j) (j : ℕ) :
    0 ≤ flow / s.mw * s.tcX j := by
  have h2 := hs.tc_nonneg j
  rw [← hs.tcX j] at h2
  exact nonneg_of_mul_nonneg_left h2 (hct j)

theorem nonneg_x {c : Compounds K} {s : Stream K} {flow : K} (hs : Carries c s flow) (hcm : ∀ j, 0 < c.mw j) (k : ℕ) :
    0 ≤ flow / s.mw * s.x k := by
  have h2 := hs.mass_nonneg k
  rw [← hs.x k] at h2
  exact nonneg_of_mul_nonneg_left h2 (hcm k)

theorem ndotBulk_nonneg {c : Compounds K} {s : Stream K} {flow : K} (hs : Carries c s flow) (hcm : ∀ j, 0 < c.mw j)
    (p : Props K) : 0 ≤ ndotBulk p s (flow / s.mw) := by
  unfold ndotBulk
  cases p.fluid with
  | none => exact le_rfl
  | some k => exact nonneg_x hs hcm k

theorem ndotTc_nonneg {c : Compounds K} {s : Stream K} {flow : K} (hs : Carries c s flow) (hct : ∀ j, 0 < c.mwTc j)
    (p : Props K) : 0 ≤ ndotTc p s (flow / s.mw) := by
  unfold ndotTc
  cases p.tc with
  | none => exact le_rfl
  | some k => exact nonneg_tc hs hct k

theorem desorbLimit_nonneg {p : Props K} {i : Inlet K} {ndot ndotIn : K} (h : 0 ≤ i.fltMax) :
    0 ≤ desorbLimit p i ndot ndotIn := by
  unfold desorbLimit
  cases p.fluid with
  | none => exact h
  | some k => exact le_max_left _ _

/-- The molar flow of a sorbate into a segment. -/
def inflow (p : Props K) (s : Stream K) (flow : K) : K := ndotBulk p s (flow / s.mw) + ndotTc p s (flow / s.mw)

theorem inflow_nonneg {c : Compounds K} {s : Stream K} {flow : K} (hs : Carries c s flow) (hcm : ∀ j, 0 < c.mw j)
    (hct : ∀ j, 0 < c.mwTc j) (p : Props K) : 0 ≤ inflow p s flow :=
  add_nonneg (ndotBulk_nonneg hs hcm p) (ndotTc_nonneg hs hct p)

/-- The facts of one sorbate's loading in a segment. -/
structure Loaded (g : Segment K) (i : Inlet K) (p : Props K) (inflow : K) (old new : Sorbate K) : Prop where
  nonneg : 0 ≤ new.loading
  exact : new.loading = old.loading + new.rate * i.dt
  adsorption : new.adsorption = new.rate * effectiveVolume g
  mass : new.loadedMass = new.loading * effectiveVolume g * p.mw
  le : new.adsorption ≤ limitFraction * inflow
  room : -new.adsorption ≤ desorbLimit p i 0 0 ∨ p.fluid ≠ none

theorem sorb_loaded {c : Compounds K} {g : Segment K} {i : Inlet K} {s t : Stream K} {flow : K} {sorbs : ℕ → Sorbate K}
    {k : ℕ} (hs : Carries c s flow) (hcm : ∀ j, 0 < c.mw j) (hct : ∀ j, 0 < c.mwTc j) (hV : 0 < g.volume) (hdt : 0 < i.dt)
    (hmax : 0 ≤ i.fltMax) (hl : 0 ≤ (sorbs k).loading) (hx : t.x = s.x) (hX : t.tcX = s.tcX) :
    Loaded g i (g.props k) (inflow (g.props k) s flow) (sorbs k) (sorb g i (flow / s.mw) t sorbs k) := by
  obtain ⟨p, hp⟩ : ∃ p, p = g.props k := ⟨_, rfl⟩
  obtain ⟨e, he⟩ : ∃ e, e = updateEquil p (i.pIn * moleFraction p t) i.tAvg sorbs (sorbs k) := ⟨_, rfl⟩
  obtain ⟨lim, hlim⟩ : ∃ l, l = desorbLimit p i (flow / s.mw) (inflow p s flow) / g.volume := ⟨_, rfl⟩
  obtain ⟨q, hq⟩ : ∃ q, q = inflow p s flow / g.volume := ⟨_, rfl⟩
  have hin : ndotBulk p t (flow / s.mw) + ndotTc p t (flow / s.mw) = inflow p s flow := by
    unfold inflow ndotBulk ndotTc
    rw [hx, hX]
  have e0 : sorb g i (flow / s.mw) t sorbs k
      = updateLoadedMass p.mw (effectiveVolume g) (updateLoading p.km i.dt q lim e) := by
    rw [he, hlim, hq, ← hin, hp]
    rfl
  have hel : e.loading = (sorbs k).loading := by rw [he]; rfl
  have hq0 : 0 ≤ q := by
    rw [hq]
    exact div_nonneg (inflow_nonneg hs hcm hct p) hV.le
  have hlim0 : 0 ≤ lim := by
    rw [hlim]
    exact div_nonneg (desorbLimit_nonneg hmax) hV.le
  have hel0 : 0 ≤ e.loading := by rw [hel]; exact hl
  have hr := rate_le (km := p.km) hdt hel0 hq0 hlim0
  have hx2 := loading_exact (km := p.km) hdt hel0 hq0 hlim0
  have hn := neg_le_rate (km := p.km) hdt hel0 hq0 hlim0
  obtain ⟨hv0, hv1⟩ := effectiveVolume_mem hV
  obtain ⟨u, hu⟩ : ∃ u, u = updateLoading p.km i.dt q lim e := ⟨_, rfl⟩
  rw [← hu] at hr hx2 hn e0
  rw [← hp, e0]
  constructor
  · show 0 ≤ u.loading
    rw [hu]
    exact le_max_left _ _
  · show u.loading = (sorbs k).loading + u.rate * i.dt
    rw [hx2, hel]
  · rfl
  · rfl
  · show u.rate * effectiveVolume g ≤ limitFraction * inflow p s flow
    have hL : (0 : K) ≤ limitFraction * q := mul_nonneg (by unfold limitFraction; norm_num) hq0
    calc u.rate * effectiveVolume g ≤ limitFraction * q * effectiveVolume g := mul_le_mul_of_nonneg_right hr hv0
      _ ≤ limitFraction * q * g.volume := mul_le_mul_of_nonneg_left hv1 hL
      _ = limitFraction * inflow p s flow := by rw [hq]; field_simp
  · show -(u.rate * effectiveVolume g) ≤ desorbLimit p i 0 0 ∨ p.fluid ≠ none
    by_cases hf : p.fluid = none
    · left
      have h1 : desorbLimit p i 0 0 = i.fltMax := by unfold desorbLimit; rw [hf]
      have h2 : desorbLimit p i (flow / s.mw) (inflow p s flow) = i.fltMax := by unfold desorbLimit; rw [hf]
      rw [h1]
      rw [h2] at hlim
      have h3 : -u.rate ≤ lim := by linarith [hn.2]
      calc -(u.rate * effectiveVolume g) = -u.rate * effectiveVolume g := by ring
        _ ≤ lim * effectiveVolume g := mul_le_mul_of_nonneg_right h3 hv0
        _ ≤ lim * g.volume := mul_le_mul_of_nonneg_left hv1 hlim0
        _ = i.fltMax := by rw [hlim]; field_simp
    · right
      exact hf

/-- One turn of the loop over the sorbates. -/
theorem step_change {c : Compounds K} {g : Segment K} {i : Inlet K} {s : Stream K} {flow : K} {k : ℕ} {r : Run K}
    (hs : Carries c s flow) (hg : Fits c g) (hdt : 0 < i.dt) (hmax : 0 ≤ i.fltMax) (hk : k < g.n)
    (hl : 0 ≤ (r.sorbs k).loading) (hx : r.stream.x = s.x) (hw : r.stream.w = s.w) (hmw : r.stream.mw = s.mw)
    (hX : r.stream.tcX = s.tcX) (hB : ∀ m ∈ bulkOf (g.props k), r.stream.mass m = s.mass m)
    (hT : ∀ m ∈ traceOf (g.props k), r.stream.tcMass m = s.tcMass m) :
    let r' := sorbateStep c g i flow (flow / s.mw) k r
    let a := (r'.sorbs k).adsorption
    Change c.n (bulkOf (g.props k)) (traceOf (g.props k)) r r'
      ∧ (∀ j, j ≠ k → r'.sorbs j = r.sorbs j)
      ∧ Loaded g i (g.props k) (inflow (g.props k) s flow) (r.sorbs k) (r'.sorbs k)
      ∧ r'.heat = r.heat + -a * (g.props k).dh * 1000000
      ∧ opt r'.stream.mass (g.props k).fluid + opt r'.stream.tcMass (g.props k).tc
          = opt s.mass (g.props k).fluid + opt s.tcMass (g.props k).tc - dead a * (g.props k).mw
      ∧ ∀ o ∈ (g.props k).offgas, o.fluid ≠ none ∨ o.tc ≠ none → opt r'.stream.mass o.fluid + opt r'.stream.tcMass o.tc
          = opt s.mass o.fluid + opt s.tcMass o.tc + (if dblEps < a then dead (a * o.interaction) * offMw c o else 0) := by
  intro r' a
  obtain ⟨p, hp⟩ : ∃ p, p = g.props k := ⟨_, rfl⟩
  obtain ⟨n, hn⟩ : ∃ n, n = sorb g i (flow / s.mw) r.stream r.sorbs k := ⟨_, rfl⟩
  have hload := sorb_loaded (t := r.stream) (sorbs := r.sorbs) (k := k) hs hg.mw hg.mwTc hg.volume hdt hmax hl hx hX
  rw [← hn, ← hp] at hload
  obtain ⟨e, he⟩ : ∃ e, e = exchange p.fluid p.tc (ndotBulk p r.stream (flow / s.mw) * p.mw)
    (ndotTc p r.stream (flow / s.mw)) (-n.adsorption) p.mw r.stream := ⟨_, rfl⟩
  obtain ⟨r1, hr1⟩ : ∃ r1 : Run K, r1 = { r with
      sorbs := Function.update r.sorbs k n
      stream := e.1
      flow := r.flow + e.2 } := ⟨_, rfl⟩
  obtain ⟨r2, hr2⟩ : ∃ r2, r2 = if dblEps < n.adsorption then
      p.offgas.foldl (offgasOne c flow (flow / s.mw) n.adsorption) r1 else r1 := ⟨_, rfl⟩
  have hr' : r' = { r2 with
      heat := r2.heat + -n.adsorption * p.dh * 1000000
      cap := if p.fluid.isSome then r2.cap + p.cp g.temperature * n.loadedMass else r2.cap } := by
    rw [hr2, hr1, he, hn, hp]
    rfl
  -- own compound
  have hb1 : ndotBulk p r.stream (flow / s.mw) = ndotBulk p s (flow / s.mw) := by unfold ndotBulk; rw [hx]
  have hb2 : ndotTc p r.stream (flow / s.mw) = ndotTc p s (flow / s.mw) := by unfold ndotTc; rw [hX]
  have hpk : ∀ m, p.fluid = some m → p.mw = c.mw m := by rw [hp]; exact hg.ownBulk k hk
  have hpt : ∀ m, p.tc = some m → p.mw = c.mwTc m := by rw [hp]; exact hg.ownTc k hk
  have hpres : p.fluid ≠ none ∨ p.tc ≠ none := by rw [hp]; exact hg.present k hk
  have hpos : 0 < p.mw := by
    cases h : p.fluid with
    | some m => rw [hpk m h]; exact hg.mw m
    | none =>
      cases h' : p.tc with
      | some j => rw [hpt j h']; exact hg.mwTc j
      | none => rw [h, h'] at hpres; simp at hpres
  have hBf : ∀ m, p.fluid = some m → m ∈ bulkOf p := by
    intro m hm
    unfold bulkOf
    rw [hm]
    simp
  have hTf : ∀ m, p.tc = some m → m ∈ traceOf p := by
    intro m hm
    unfold traceOf
    rw [hm]
    simp
  rw [← hp] at hB hT
  have hch := change_exchange (r := r) (r' := r1) (fl := p.fluid) (tc := p.tc) (n := c.n)
    (a := ndotBulk p r.stream (flow / s.mw) * p.mw) (b := ndotTc p r.stream (flow / s.mw)) (d := -n.adsorption) (mw := p.mw)
    (by rw [hr1, he]) (by rw [hr1, he]) (fun m hm => hg.inBulk k hk m (by rw [← hp]; exact hBf m hm)) hpos
    (by rw [hb1]; exact mul_nonneg (ndotBulk_nonneg hs hg.mw p) hpos.le)
    (by rw [hb2]; exact ndotTc_nonneg hs hg.mwTc p)
    (by
      intro m hm
      rw [hB m (hBf m hm), hb1, hpk m hm]
      unfold ndotBulk
      rw [hm]
      exact (hs.x m).symm)
    (by
      intro m hm
      rw [hT m (hTf m hm), hb2, hpt m hm]
      unfold ndotTc
      rw [hm]
      exact (hs.tcX m).symm)
    hpres
    (by intro h; unfold ndotTc; rw [h])
    (by intro h; unfold ndotBulk; rw [h]; exact zero_mul _)
    (by
      rw [hb1, hb2]
      have h1 := mul_le_mul_of_nonneg_right hload.le hpos.le
      unfold inflow at h1
      calc -(-n.adsorption * p.mw) = n.adsorption * p.mw := by ring
        _ ≤ limitFraction * (ndotBulk p s (flow / s.mw) + ndotTc p s (flow / s.mw)) * p.mw := h1
        _ = limitFraction * (ndotBulk p s (flow / s.mw) * p.mw + ndotTc p s (flow / s.mw) * p.mw) := by ring)
  obtain ⟨h1c, h1o⟩ := hch
  have hnodB : (bulkOf p).Nodup := by rw [hp]; exact once_self hg.bulkOnce hk
  have hnodT : (traceOf p).Nodup := by rw [hp]; exact once_self hg.tcOnce hk
  have hdisjB : ∀ m ∈ p.fluid.toList, m ∉ p.offgas.filterMap (·.fluid) := fun m hm hc =>
    (List.nodup_append.1 hnodB).2.2 m hm m hc rfl
  have hdisjT : ∀ m ∈ p.tc.toList, m ∉ p.offgas.filterMap (·.tc) := fun m hm hc =>
    (List.nodup_append.1 hnodT).2.2 m hm m hc rfl
  have hmassOff : ∀ m ∈ p.offgas.filterMap (·.fluid), r1.stream.mass m = s.mass m := fun m hm => by
    rw [h1c.mass m (fun hc => hdisjB m hc hm)]
    exact hB m (List.mem_append_right _ hm)
  have htcOff : ∀ m ∈ p.offgas.filterMap (·.tc), r1.stream.tcMass m = s.tcMass m := fun m hm => by
    rw [h1c.tcMass m (fun hc => hdisjT m hc hm)]
    exact hT m (List.mem_append_right _ hm)
  have hopt1 : ∀ o ∈ p.offgas, opt r1.stream.mass o.fluid = opt s.mass o.fluid := by
    intro o ho
    cases h : o.fluid with
    | none => rfl
    | some m => exact hmassOff m (List.mem_filterMap.2 ⟨o, ho, h⟩)
  have hopt2 : ∀ o ∈ p.offgas, opt r1.stream.tcMass o.tc = opt s.tcMass o.tc := by
    intro o ho
    cases h : o.tc with
    | none => rfl
    | some m => exact htcOff m (List.mem_filterMap.2 ⟨o, ho, h⟩)
  -- the offgas compounds
  have h2 : Change c.n (p.offgas.filterMap (·.fluid)) (p.offgas.filterMap (·.tc)) r1 r2 ∧ r2.sorbs = r1.sorbs
      ∧ r2.heat = r1.heat
      ∧ ∀ o ∈ p.offgas, o.fluid ≠ none ∨ o.tc ≠ none → opt r2.stream.mass o.fluid + opt r2.stream.tcMass o.tc
          = opt s.mass o.fluid + opt s.tcMass o.tc
            + (if dblEps < n.adsorption then dead (n.adsorption * o.interaction) * offMw c o else 0) := by
    by_cases ha : dblEps < n.adsorption
    · rw [if_pos ha] at hr2
      obtain ⟨f1, f2, f3, _, f5⟩ := offgas_fold hs hg.mw hg.mwTc ha p.offgas r1 (by rw [h1c.x, hx]) (by rw [h1c.w, hw])
        (by rw [h1c.mw, hmw]) (by rw [h1c.tcX, hX]) (by rw [hp]; exact hg.interaction k hk) (by rw [hp]; exact hg.offgas k hk)
        (fun m hm => hg.inBulk k hk m (by rw [← hp]; exact List.mem_append_right _ hm))
        (List.nodup_append.1 hnodB).2.1 (List.nodup_append.1 hnodT).2.1 hmassOff htcOff
      rw [← hr2] at f1 f2 f3 f5
      refine ⟨f1, f2, f3, ?_⟩
      intro o ho hso
      rw [if_pos ha, f5 o ho hso, hopt1 o ho, hopt2 o ho]
    · rw [if_neg ha] at hr2
      rw [hr2]
      refine ⟨⟨rfl, rfl, rfl, rfl, fun _ _ => rfl, fun _ _ => rfl, rfl, ?_, ?_⟩, rfl, rfl, ?_⟩
      · intro m hm
        rw [hmassOff m hm]
        linarith [hs.mass_nonneg m]
      · intro j hj
        rw [htcOff j hj]
        exact hs.tc_nonneg j
      · intro o ho _
        rw [if_neg ha, hopt1 o ho, hopt2 o ho, add_zero]
  obtain ⟨g1, g2, g3, g4⟩ := h2
  have hsk : r'.sorbs k = n := by
    rw [hr']
    show r2.sorbs k = n
    rw [g2, hr1]
    exact Function.update_self _ _ _
  have hstr : r'.stream = r2.stream := by rw [hr']
  have hfl : r'.flow = r2.flow := by rw [hr']
  have hall := h1c.trans g1 hdisjB hdisjT
  have ha : a = n.adsorption := by
    show (r'.sorbs k).adsorption = _
    rw [hsk]
  rw [ha, hsk, ← hp]
  refine ⟨⟨?_, ?_, ?_, ?_, ?_, ?_, ?_, ?_, ?_⟩, ?_, hload, ?_, ?_, ?_⟩
  · rw [hstr]; exact hall.x
  · rw [hstr]; exact hall.w
  · rw [hstr]; exact hall.mw
  · rw [hstr]; exact hall.tcX
  · rw [hstr]; exact hall.mass
  · rw [hstr]; exact hall.tcMass
  · rw [hstr, hfl]; exact hall.flow
  · rw [hstr]; exact hall.keep
  · rw [hstr]; exact hall.tc_nonneg
  · intro j hj
    rw [hr']
    show r2.sorbs j = _
    rw [g2, hr1]
    exact Function.update_of_ne hj _ _
  · rw [hr']
    show r2.heat + _ = _
    rw [g3, hr1]
  · rw [hstr, g1.opt_mass (fun m hm => hdisjB m (by rw [hm]; simp)), g1.opt_tc (fun m hm => hdisjT m (by rw [hm]; simp)),
      h1o, dead_neg]
    have e1 : opt r.stream.mass p.fluid = opt s.mass p.fluid := by
      cases h : p.fluid with
      | none => rfl
      | some m => exact hB m (hBf m h)
    have e2 : opt r.stream.tcMass p.tc = opt s.tcMass p.tc := by
      cases h : p.tc with
      | none => rfl
      | some m => exact hT m (hTf m h)
    rw [e1, e2]
    ring
  · rw [hstr]
    exact g4

/-- All the sorbates of a segment. -/
theorem sorbates_change {c : Compounds K} {g : Segment K} {i : Inlet K} {s : Stream K} {flow : K} {r0 : Run K}
    (hs : Carries c s flow) (hg : Fits c g) (hdt : 0 < i.dt) (hmax : 0 ≤ i.fltMax)
    (hl : ∀ k < g.n, 0 ≤ (r0.sorbs k).loading) (h0 : r0.stream = s) (n : ℕ) (hn : n ≤ g.n) :
    let r := loop (sorbateStep c g i flow (flow / s.mw)) n r0
    Change c.n ((List.range n).flatMap (fun k => bulkOf (g.props k))) ((List.range n).flatMap (fun k => traceOf (g.props k)))
        r0 r
      ∧ (∀ j, n ≤ j → r.sorbs j = r0.sorbs j)
      ∧ r.heat = r0.heat + ∑ k ∈ Finset.range n, -(r.sorbs k).adsorption * (g.props k).dh * 1000000
      ∧ ∀ k < n, Loaded g i (g.props k) (inflow (g.props k) s flow) (r0.sorbs k) (r.sorbs k)
        ∧ opt r.stream.mass (g.props k).fluid + opt r.stream.tcMass (g.props k).tc
          = opt s.mass (g.props k).fluid + opt s.tcMass (g.props k).tc - dead (r.sorbs k).adsorption * (g.props k).mw
        ∧ ∀ o ∈ (g.props k).offgas, o.fluid ≠ none ∨ o.tc ≠ none → opt r.stream.mass o.fluid + opt r.stream.tcMass o.tc
          = opt s.mass o.fluid + opt s.tcMass o.tc
            + (if dblEps < (r.sorbs k).adsorption then dead ((r.sorbs k).adsorption * o.interaction) * offMw c o else 0) := by
  induction n with
  | zero =>
    intro r
    refine ⟨Change.refl _ _, fun _ _ => rfl, ?_, fun k hk => absurd hk (by omega)⟩
    simp [r]
  | succ n ih =>
    intro r
    obtain ⟨i1, i2, i3, i4⟩ := ih (by omega)
    obtain ⟨t, ht⟩ : ∃ t, t = loop (sorbateStep c g i flow (flow / s.mw)) n r0 := ⟨_, rfl⟩
    rw [← ht] at i1 i2 i3 i4
    have hr : r = sorbateStep c g i flow (flow / s.mw) n t := by rw [ht]; rfl
    have hnB : ∀ m ∈ bulkOf (g.props n), m ∉ (List.range n).flatMap (fun k => bulkOf (g.props k)) := by
      intro m hm hc
      obtain ⟨j, hj, hj2⟩ := List.mem_flatMap.1 hc
      exact once_disjoint hg.bulkOnce (List.mem_range.1 hj) (by omega) hj2 hm
    have hnT : ∀ m ∈ traceOf (g.props n), m ∉ (List.range n).flatMap (fun k => traceOf (g.props k)) := by
      intro m hm hc
      obtain ⟨j, hj, hj2⟩ := List.mem_flatMap.1 hc
      exact once_disjoint hg.tcOnce (List.mem_range.1 hj) (by omega) hj2 hm
    have hst := step_change (i := i) (r := t) (k := n) hs hg hdt hmax (by omega)
      (by rw [i2 n le_rfl]; exact hl n (by omega)) (by rw [i1.x, h0]) (by rw [i1.w, h0]) (by rw [i1.mw, h0])
      (by rw [i1.tcX, h0]) (fun m hm => by rw [i1.mass m (hnB m hm), h0]) (fun m hm => by rw [i1.tcMass m (hnT m hm), h0])
    rw [← hr] at hst
    obtain ⟨s1, s2, s3, s4, s5, s6⟩ := hst
    rw [i2 n le_rfl] at s3
    refine ⟨?_, ?_, ?_, ?_⟩
    · rw [range_flatMap_succ, range_flatMap_succ]
      exact i1.trans s1 (fun m hm hc => hnB m hc hm) (fun m hm hc => hnT m hc hm)
    · intro j hj
      rw [s2 j (by omega), i2 j (by omega)]
    · rw [s4, i3, Finset.sum_range_succ]
      have : ∑ k ∈ Finset.range n, -(t.sorbs k).adsorption * (g.props k).dh * 1000000
          = ∑ k ∈ Finset.range n, -(r.sorbs k).adsorption * (g.props k).dh * 1000000 := by
        refine Finset.sum_congr rfl (fun k hk => ?_)
        rw [s2 k (by have := Finset.mem_range.1 hk; omega)]
      rw [this]
      ring
    · intro k hk
      by_cases hkn : k = n
      · subst hkn
        exact ⟨s3, s5, s6⟩
      · have hlt : k < n := by omega
        obtain ⟨a1, a2, a3⟩ := i4 k hlt
        rw [s2 k hkn]
        have hd : ∀ m ∈ bulkOf (g.props k), m ∉ bulkOf (g.props n) := fun m hm =>
          once_disjoint hg.bulkOnce hlt (by omega) hm
        have hdT : ∀ m ∈ traceOf (g.props k), m ∉ traceOf (g.props n) := fun m hm =>
          once_disjoint hg.tcOnce hlt (by omega) hm
        refine ⟨a1, ?_, ?_⟩
        · rw [s1.opt_mass (fun m hm => hd m (by unfold bulkOf; rw [hm]; simp)),
            s1.opt_tc (fun m hm => hdT m (by unfold traceOf; rw [hm]; simp))]
          exact a2
        · intro o ho hso
          rw [s1.opt_mass (fun m hm => hd m (List.mem_append_right _ (List.mem_filterMap.2 ⟨o, ho, hm⟩))),
            s1.opt_tc (fun m hm => hdT m (List.mem_append_right _ (List.mem_filterMap.2 ⟨o, ho, hm⟩)))]
          exact a3 o ho hso

/-! ## The stream out of a segment -/

theorem loop_sum (f : ℕ → K) (n : ℕ) : loop (fun k a => a + f k) n (0 : K) = ∑ k ∈ Finset.range n, f k := by
  induction n with
  | zero => simp
  | succ n ih => rw [loop_succ, ih, Finset.sum_range_succ]

/-- Once the fractions are updated the stream carries the sum of its masses. -/
theorem updateMass_carries {c : Compounds K} {s : Stream K} {flow : K} (hcm : ∀ k, 0 < c.mw k) (hct : ∀ j, 0 < c.mwTc j)
    (hm : ∀ k, 0 ≤ s.mass k) (ht : ∀ j, 0 ≤ s.tcMass j) (hf : flow = ∑ k ∈ Finset.range c.n, s.mass k)
    (h1 : dblEps ≤ ∑ k ∈ Finset.range c.n, s.mass k) (h2 : dblEps ≤ ∑ k ∈ Finset.range c.n, s.mass k / c.mw k) :
    Carries c (updateMass c s) flow := by
  have eps : (0 : K) < dblEps := dblEps_pos
  obtain ⟨M, hM⟩ : ∃ M, M = ∑ k ∈ Finset.range c.n, s.mass k := ⟨_, rfl⟩
  obtain ⟨N, hN⟩ : ∃ N, N = ∑ k ∈ Finset.range c.n, s.mass k / c.mw k := ⟨_, rfl⟩
  have eM : innerLimit dblEps (loop (fun k a => a + s.mass k) c.n 0) = M := by
    rw [loop_sum, innerLimit_of_ge h1, hM]
  have eN : innerLimit dblEps (loop (fun k a => a + s.mass k / c.mw k) c.n 0) = N := by
    rw [loop_sum (fun k => s.mass k / c.mw k), innerLimit_of_ge h2, hN]
  rw [← hM] at h1 hf
  rw [← hN] at h2
  have hM0 : 0 < M := by linarith
  have hN0 : 0 < N := by linarith
  have emw : (updateMass c s).mw = M / N := by
    show innerLimit _ _ / innerLimit _ _ = _
    rw [eM, eN]
  have ediv : flow / (updateMass c s).mw = N := by
    rw [emw, hf]
    field_simp
  have efr : ∀ j, (if 0 < innerLimit dblEps (loop (fun k a => a + s.mass k / c.mw k) c.n 0) then
      s.tcMass j / innerLimit dblEps (loop (fun k a => a + s.mass k / c.mw k) c.n 0) / c.mwTc j else s.tcX j)
        = s.tcMass j / N / c.mwTc j := by
    intro j
    rw [eN, if_pos hN0]
  have etc : ∀ j, (updateMass c s).tcMass j = if s.tcMass j / N / c.mwTc j < dblEps then 0 else s.tcMass j := by
    intro j
    rw [← efr j]
    rfl
  have eX : ∀ j, (updateMass c s).tcX j = if s.tcMass j / N / c.mwTc j < dblEps then 0 else s.tcMass j / N / c.mwTc j := by
    intro j
    rw [← efr j]
    rfl
  refine ⟨hm, ?_, ?_, ?_, ?_, ?_⟩
  · intro j
    rw [etc]
    split_ifs
    · exact le_rfl
    · exact ht j
  · exact hf.trans hM
  · intro k
    rw [ediv]
    show N * (s.mass k / c.mw k / innerLimit _ _) * c.mw k = s.mass k
    rw [eN]
    have := (hcm k).ne'
    field_simp
  · intro k
    show flow * (s.mass k / innerLimit _ _) = s.mass k
    rw [eM, hf]
    field_simp
  · intro j
    rw [ediv, etc, eX]
    by_cases h : s.tcMass j / N / c.mwTc j < dblEps
    · rw [if_pos h, if_pos h]
      ring
    · rw [if_neg h, if_neg h]
      have := (hct j).ne'
      field_simp

theorem updateMass_tc {c : Compounds K} {s : Stream K} {j : ℕ} (h : (updateMass c s).tcX j ≠ 0) :
    (updateMass c s).tcMass j = s.tcMass j := by
  have e1 : ∃ f : K, (updateMass c s).tcMass j = (if f < dblEps then 0 else s.tcMass j)
      ∧ (updateMass c s).tcX j = (if f < dblEps then 0 else f) := ⟨_, rfl, rfl⟩
  obtain ⟨f, h1, h2⟩ := e1
  rw [h1]
  rw [h2] at h
  by_cases hf : f < dblEps
  · rw [if_pos hf] at h
    exact absurd rfl h
  · rw [if_neg hf]

end Gunns.Sorption
