import Verif.Link.Elements
import Mathlib.Algebra.Order.Field.Basic
import Mathlib.Algebra.BigOperators.Group.Finset.Basic
import Mathlib.Algebra.BigOperators.Ring.Finset
import Mathlib.Algebra.BigOperators.Group.List.Basic
import Mathlib.Tactic.Ring
import Mathlib.Tactic.Linarith
import Mathlib.Tactic.FieldSimp
import Mathlib.Tactic.Positivity
import Mathlib.Tactic.NormNum
import Mathlib.Data.Rat.Defs
import Mathlib.Algebra.Order.Ring.Rat

/-!
# Basic links and nodes (C23, C24, C26)
-/

set_option linter.unusedSectionVars false

namespace Gunns.Props
open Gunns.Elements

variable {K : Type _} [Field K] [LinearOrder K] [IsStrictOrderedRing K]

/-- The port matrix of a conductance `g` between two ports, row by row. -/
def IsStamp (g : K) (a : Nat → K) : Prop := a 0 = g ∧ a 1 = -g ∧ a 2 = -g ∧ a 3 = g

theorem zero_isStamp : IsStamp (0 : K) (Two.zero (K := K)).adm :=
  ⟨rfl, neg_zero.symm, neg_zero.symm, rfl⟩

theorem stamp_spec {t : Two K} {g0 : K} (h : IsStamp g0 t.adm) (g : K) :
    IsStamp g (stamp g t).adm ∧ (stamp g t).src = t.src ∧ (stamp g t).pot = t.pot ∧
    ((stamp g t).update = true ↔ t.update = true ∨ g ≠ g0) := by
  unfold stamp
  by_cases hc : |t.adm 0 - g| > 0
  · rw [if_pos hc]
    refine ⟨⟨?_, ?_, ?_, ?_⟩, rfl, rfl, ?_⟩
    · simp [Vect.set]
    · simp [Vect.set]
    · simp [Vect.set]
    · simp [Vect.set]
    · have : g ≠ g0 := by
        rintro rfl
        rw [h.1, sub_self, abs_zero] at hc
        exact lt_irrefl _ hc
      simp [this]
  · rw [if_neg hc]
    have e : t.adm 0 - g = 0 := abs_eq_zero.mp (le_antisymm (not_lt.mp hc) (abs_nonneg _))
    have e' : g = g0 := by rw [← h.1]; exact (sub_eq_zero.mp e).symm
    subst e'
    exact ⟨h, rfl, rfl, by simp⟩

/-! ## C23 -/

/-- The conductance asked for: the effective conductivity less the blocked fraction. -/
def unblocked (eff : K) : Option K → K
  | none => eff
  | some v => eff * (1 - v)

/-- C23: whatever the conductivity and blockage, after a step the conductor's matrix is the
symmetric two-port stamp of a conductance which is the unblocked conductivity limited to [0, 1e15], and
the solver is told of a change exactly when the conductance changed. -/
theorem c23_stamp {t : Two K} {g0 : K} (h : IsStamp g0 t.adm) (eff : K) (blk : Option K) :
    ∃ g, IsStamp g (conductorStep eff blk t).adm ∧ 0 ≤ g ∧ g ≤ 10 ^ 15 ∧
      (0 ≤ unblocked eff blk → unblocked eff blk ≤ 10 ^ 15 → g = unblocked eff blk) ∧
      (unblocked eff blk < 0 → g = 0) ∧ (10 ^ 15 < unblocked eff blk → g = 10 ^ 15) ∧
      ((conductorStep eff blk t).update = true ↔ t.update = true ∨ g ≠ g0) := by
  have hs := stamp_spec h (systemConductance eff blk)
  have hu : systemConductance eff blk = max (min (unblocked eff blk) (10 ^ 15)) 0 := by
    unfold systemConductance unblocked limitRange conductanceLimit
    cases blk <;> rfl
  have hp : (0 : K) ≤ 10 ^ 15 := by positivity
  refine ⟨systemConductance eff blk, hs.1, ?_, ?_, ?_, ?_, ?_, hs.2.2.2⟩
  · rw [hu]; exact le_max_right _ _
  · rw [hu]; exact max_le (min_le_right _ _) hp
  · intro h1 h2; rw [hu, min_eq_left h2, max_eq_left h1]
  · intro h1; rw [hu, min_eq_left (h1.le.trans hp), max_eq_right h1.le]
  · intro h1; rw [hu, min_eq_right h1.le, max_eq_left hp]

/-- C23: the stamp shape survives every history of steps from initialisation. -/
theorem c23_stamp_always (hist : List (K × Option K)) :
    ∃ g, IsStamp g (hist.foldl (fun t s => conductorStep s.1 s.2 t) (Two.zero (K := K))).adm ∧
      0 ≤ g ∧ g ≤ 10 ^ 15 := by
  have gen : ∀ (hist : List (K × Option K)) (t : Two K), (∃ g, IsStamp g t.adm ∧ 0 ≤ g ∧ g ≤ 10 ^ 15) →
      ∃ g, IsStamp g (hist.foldl (fun t s => conductorStep s.1 s.2 t) t).adm ∧ 0 ≤ g ∧ g ≤ 10 ^ 15 := by
    intro hist
    induction hist with
    | nil => intro t h; exact h
    | cons s ss ih =>
      rintro t ⟨g, h, _⟩
      obtain ⟨g', h1, h2, h3, _⟩ := c23_stamp h s.1 s.2
      exact ih _ ⟨g', h1, h2, h3⟩
  exact gen hist _ ⟨0, zero_isStamp, le_rfl, by positivity⟩

/-- C23: for all potentials the flux goes from the higher to the lower potential or is zero; it is the
conductance times the drop except inside the dead band; the power is never positive. -/
theorem c23_flux {t : Two K} {g : K} (h : IsStamp g t.adm) (hg : 0 ≤ g) :
    let t' := conductorFlows t
    (t.pot 0 > t.pot 1 → 0 ≤ t'.flux) ∧ (t.pot 0 < t.pot 1 → t'.flux ≤ 0) ∧
    (t.pot 0 = t.pot 1 → t'.flux = 0) ∧
    (t'.flux = g * (t.pot 0 - t.pot 1) ∨
      (t'.flux = 0 ∧ |t.pot 0 - t.pot 1| < 100 * (1 / 2 ^ 52) * max (t.pot 0) (t.pot 1))) ∧
    t'.power ≤ 0 ∧ t'.power = -(t'.flux * (t.pot 0 - t.pot 1)) := by
  intro t'
  have hfl : t'.flux = if |t.pot 0 - t.pot 1| < max (t.pot 0) (t.pot 1) * eps100 then 0
      else (t.pot 0 - t.pot 1) * t.adm 0 := rfl
  have hpw : t'.power = -t'.flux * (t.pot 0 - t.pot 1) := rfl
  have key : t'.flux = g * (t.pot 0 - t.pot 1) ∨
      (t'.flux = 0 ∧ |t.pot 0 - t.pot 1| < 100 * (1 / 2 ^ 52) * max (t.pot 0) (t.pot 1)) := by
    by_cases hc : |t.pot 0 - t.pot 1| < max (t.pot 0) (t.pot 1) * eps100
    · right
      rw [hfl, if_pos hc]
      refine ⟨rfl, ?_⟩
      unfold eps100 dblEps at hc
      rw [mul_comm]; exact hc
    · left; rw [hfl, if_neg hc, h.1, mul_comm]
  refine ⟨?_, ?_, ?_, key, ?_, by rw [hpw, neg_mul]⟩
  · intro hlt
    rcases key with k | k
    · rw [k]; exact mul_nonneg hg (sub_nonneg.mpr hlt.le)
    · rw [k.1]
  · intro hlt
    rcases key with k | k
    · rw [k]; exact mul_nonpos_of_nonneg_of_nonpos hg (sub_nonpos.mpr hlt.le)
    · rw [k.1]
  · intro he
    rcases key with k | k
    · rw [k, he, sub_self, mul_zero]
    · exact k.1
  · rw [hpw]
    rcases key with k | k
    · rw [k]
      have : -(g * (t.pot 0 - t.pot 1)) * (t.pot 0 - t.pot 1) = -(g * (t.pot 0 - t.pot 1) ^ 2) := by ring
      rw [this]
      exact neg_nonpos.mpr (mul_nonneg hg (sq_nonneg _))
    · rw [k.1]; simp

/-- C23: what a transport takes out of one node it puts into the other, and it touches no other
node. -/
theorem c23_transport (a b : Nat) (hab : a ≠ b) (f : K) (ns : Nat → NodeFlux K) :
    let ns' := transportFlux a b f ns
    (ns' a).influx - (ns' a).outflux = (ns a).influx - (ns a).outflux - f ∧
    (ns' b).influx - (ns' b).outflux = (ns b).influx - (ns b).outflux + f ∧
    ((ns' a).outflux - (ns a).outflux = (ns' b).influx - (ns b).influx) ∧
    ((ns' b).outflux - (ns b).outflux = (ns' a).influx - (ns a).influx) ∧
    (∀ k, (ns k).influx ≤ (ns' k).influx ∧ (ns k).outflux ≤ (ns' k).outflux) ∧
    ∀ k, k ≠ a → k ≠ b → ns' k = ns k := by
  intro ns'
  have hba : b ≠ a := fun h => hab h.symm
  have hle : ∀ (x y : K) (c : Prop) [Decidable c], 0 ≤ y → x ≤ if c then x + y else x := by
    intro x y c _ hy; split_ifs <;> linarith
  show _ ∧ _ ∧ _ ∧ _ ∧ (∀ k, _ ≤ ((transportFlux a b f ns) k).influx ∧ _ ≤ ((transportFlux a b f ns) k).outflux) ∧ _
  rcases lt_trichotomy f 0 with hf | hf | hf
  · have e : ns' = atNode a (collectInflux (-f)) (atNode b (collectOutflux (-f)) ns) := by
      show transportFlux a b f ns = _
      unfold transportFlux; rw [if_neg (not_lt.mpr hf.le), if_pos hf]
    have e2 : transportFlux a b f ns = atNode a (collectInflux (-f)) (atNode b (collectOutflux (-f)) ns) := e
    rw [e2, e]
    refine ⟨?_, ?_, ?_, ?_, ?_, ?_⟩
    · simp [atNode, collectInflux, hab]; ring
    · simp [atNode, collectOutflux, hba]; ring
    · simp [atNode, collectInflux, collectOutflux, hab, hba]
    · simp [atNode, collectInflux, collectOutflux, hab, hba]
    · intro k
      simp only [atNode, collectInflux, collectOutflux]
      split_ifs <;> constructor <;> linarith
    · intro k h1 h2
      simp [atNode, h1, h2]
  · have e : ns' = ns := by
      show transportFlux a b f ns = _
      unfold transportFlux; rw [if_neg (by rw [hf]; exact lt_irrefl _), if_neg (by rw [hf]; exact lt_irrefl _)]
    have e2 : transportFlux a b f ns = ns := e
    rw [e2, e, hf]
    simp
  · have e : ns' = atNode b (collectInflux f) (atNode a (collectOutflux f) ns) := by
      show transportFlux a b f ns = _
      unfold transportFlux; rw [if_pos hf]
    have e2 : transportFlux a b f ns = atNode b (collectInflux f) (atNode a (collectOutflux f) ns) := e
    rw [e2, e]
    refine ⟨?_, ?_, ?_, ?_, ?_, ?_⟩
    · simp [atNode, collectOutflux, hab]; ring
    · simp [atNode, collectInflux, hba]; ring
    · simp [atNode, collectInflux, collectOutflux, hab, hba]
    · simp [atNode, collectInflux, collectOutflux, hab, hba]
    · intro k
      simp only [atNode, collectInflux, collectOutflux]
      split_ifs <;> constructor <;> linarith
    · intro k h1 h2
      simp [atNode, h1, h2]

/-- C23 for the flow controller: the conductance it asks for would, at the potentials it was computed
from, carry no more than the commanded flux; exactly that unless the maximum conductivity limits it or
the drop is below 2^-52; and nothing against a reversed drop unless reverse control is enabled. -/
theorem c23_controller (default cmd : K) (reverse : Bool) (t : Two K) (hd : 0 ≤ default) :
    let g := controllerConductivity default cmd reverse t
    0 ≤ g ∧ g ≤ default ∧ g * |t.pot 0 - t.pot 1| ≤ |cmd| ∧
    (reverse = false → t.pot 0 < t.pot 1 → g = 0) ∧
    ((reverse = true ∨ t.pot 1 ≤ t.pot 0) → 1 / 2 ^ 52 ≤ |t.pot 0 - t.pot 1| →
      |cmd| / |t.pot 0 - t.pot 1| ≤ default → g * |t.pot 0 - t.pot 1| = |cmd|) := by
  intro g
  have hE : (0 : K) < dblEps := by unfold dblEps; positivity
  have hdp : 0 < max dblEps |t.pot 0 - t.pot 1| := lt_of_lt_of_le hE (le_max_left _ _)
  have hg : g = if t.pot 1 > t.pot 0 ∧ reverse = false then 0
      else min default (|cmd| / max dblEps |t.pot 0 - t.pot 1|) := rfl
  have hmin : 0 ≤ min default (|cmd| / max dblEps |t.pot 0 - t.pot 1|) :=
    le_min hd (div_nonneg (abs_nonneg _) hdp.le)
  refine ⟨?_, ?_, ?_, ?_, ?_⟩
  · rw [hg]; split_ifs
    · exact le_rfl
    · exact hmin
  · rw [hg]; split_ifs
    · exact hd
    · exact min_le_left _ _
  · rw [hg]; split_ifs
    · rw [zero_mul]; exact abs_nonneg _
    · calc min default (|cmd| / max dblEps |t.pot 0 - t.pot 1|) * |t.pot 0 - t.pot 1|
          ≤ (|cmd| / max dblEps |t.pot 0 - t.pot 1|) * max dblEps |t.pot 0 - t.pot 1| :=
            mul_le_mul (min_le_right _ _) (le_max_right _ _) (abs_nonneg _)
              (div_nonneg (abs_nonneg _) hdp.le)
        _ = |cmd| := div_mul_cancel₀ _ hdp.ne'
  · intro h1 h2
    rw [hg, if_pos ⟨h2, h1⟩]
  · intro h1 h2 h3
    have hmax : max dblEps |t.pot 0 - t.pot 1| = |t.pot 0 - t.pot 1| := max_eq_right h2
    rw [hg, if_neg, hmax, min_eq_right h3, div_mul_cancel₀]
    · exact (lt_of_lt_of_le hE h2).ne'
    · rintro ⟨h4, h5⟩
      rcases h1 with h1 | h1
      · rw [h5] at h1; exact Bool.noConfusion h1
      · exact absurd h4 (not_lt.mpr h1)

/-- A conductance of 2 at 25 % blockage between 10 and 4, and one whose request exceeds the limit. -/
example :
    let t := conductorStep 2 (some (1/4)) (Two.zero (K := ℚ))
    let t' := conductorFlows { t with pot := fun p => if p = 0 then 10 else 4 }
    t.adm 1 = -3/2 ∧ t.update = true ∧ t'.flux = 9 ∧ t'.power = -54 ∧
    (conductorStep (10 ^ 16) none (Two.zero (K := ℚ))).adm 0 = 10 ^ 15 := by
  decide +kernel

/-! ## C24 -/

/-- One solved step of a capacitor as the solver drives it: the link's `step`, then the solver writes
the solved potentials, then `computeFlows`. -/
def capacitorCycle (cap dt v0 v1 : K) (t : Two K) : Two K :=
  let t := capacitorStep cap dt t
  sourcedFlows { t with pot := fun p => if p = 0 then v0 else v1 }

/-- Charge delivered over a run: the sum of flux times time step, with the time step not below 2^-52. -/
def capacitorRun (cap : K) : List (K × K × K) → Two K → K × Two K
  | [], t => (0, t)
  | (dt, v0, v1) :: rest, t =>
    let t1 := capacitorCycle cap dt v0 v1 t
    let r := capacitorRun cap rest t1
    (max dt (1 / 2 ^ 52) * t1.flux + r.1, r.2)

/-- C24: one step. The matrix is the stamp of `cap/dt`, the sources cancel, and the flux is the
backward difference of the potential across the capacitor. -/
theorem c24_step {t : Two K} {g0 : K} (h : IsStamp g0 t.adm) (cap dt v0 v1 : K) :
    let t1 := capacitorStep cap dt t
    let t2 := capacitorCycle cap dt v0 v1 t
    IsStamp (cap / max dt (1 / 2 ^ 52)) t1.adm ∧ t1.src 0 + t1.src 1 = 0 ∧ t2.adm = t1.adm ∧
    t2.pot 0 = v0 ∧ t2.pot 1 = v1 ∧
    max dt (1 / 2 ^ 52) * t2.flux = cap * ((v0 - v1) - (t.pot 0 - t.pot 1)) := by
  intro t1 t2
  have hE : (0 : K) < 1 / 2 ^ 52 := by positivity
  have hdt : (if dt < dblEps then cap / dblEps else cap / dt) = cap / max dt (1 / 2 ^ 52) := by
    have e : (dblEps : K) = 1 / 2 ^ 52 := rfl
    rw [e]
    split_ifs with hc
    · rw [max_eq_right hc.le]
    · rw [max_eq_left (not_lt.mp hc)]
  obtain ⟨s1, s2, s3, _⟩ := stamp_spec h (cap / max dt (1 / 2 ^ 52))
  have hs0 : t1.src 0 = (t.pot 0 - t.pot 1) * (cap / max dt (1 / 2 ^ 52)) := by
    simp only [t1, capacitorStep, hdt, Vect.set]
    rw [if_neg (by decide), if_pos trivial, s3, s1.1]
  have hs1 : t1.src 1 = -t1.src 0 := by
    simp [t1, capacitorStep, Vect.set]
  have hadm : IsStamp (cap / max dt (1 / 2 ^ 52)) t1.adm := by
    show IsStamp _ (stamp (if dt < dblEps then cap / dblEps else cap / dt) t).adm
    rw [hdt]; exact s1
  refine ⟨hadm, by rw [hs1]; ring, rfl, rfl, rfl, ?_⟩
  have hf : t2.flux = (v0 - v1) * t1.adm 0 - t1.src 0 := rfl
  rw [hf, hs0, hadm.1]
  have hm : max dt (1 / 2 ^ 52) ≠ 0 := (lt_of_lt_of_le hE (le_max_right _ _)).ne'
  field_simp

/-- C24: over any sequence of steps and solved potentials, the charge delivered into the capacitor is
its capacitance times the change of the potential across it. -/
theorem c24_charge (cap : K) (steps : List (K × K × K)) {t : Two K} (h : ∃ g, IsStamp g t.adm) :
    (capacitorRun cap steps t).1 =
      cap * (((capacitorRun cap steps t).2.pot 0 - (capacitorRun cap steps t).2.pot 1) -
        (t.pot 0 - t.pot 1)) ∧ ∃ g, IsStamp g (capacitorRun cap steps t).2.adm := by
  induction steps generalizing t with
  | nil => exact ⟨by simp [capacitorRun], h⟩
  | cons s rest ih =>
    obtain ⟨dt, v0, v1⟩ := s
    obtain ⟨g, hg⟩ := h
    obtain ⟨h1, _, h3, h4, h5, h6⟩ := c24_step hg cap dt v0 v1
    obtain ⟨i1, i2⟩ := ih (t := capacitorCycle cap dt v0 v1 t) ⟨_, h3 ▸ h1⟩
    refine ⟨?_, i2⟩
    show max dt (1 / 2 ^ 52) * (capacitorCycle cap dt v0 v1 t).flux +
      (capacitorRun cap rest (capacitorCycle cap dt v0 v1 t)).1 = _
    rw [i1, h6, h4, h5]
    show _ = cap * (((capacitorRun cap rest (capacitorCycle cap dt v0 v1 t)).2.pot 0 -
      (capacitorRun cap rest (capacitorCycle cap dt v0 v1 t)).2.pot 1) - (t.pot 0 - t.pot 1))
    ring

/-- A capacitor of 3 charged from 0 to 2 and discharged to 1/2 in steps of different length. -/
example : (capacitorRun 3 [(1/10, 2, 0), (1/2, 1/2, 0)] (Two.zero (K := ℚ))).1 = 3/2 := by decide +kernel

/-! ## C26 -/

/-- What flow `f` brings into node `k` (negative when it takes). -/
def Flow.into (f : Flow K) (k : Nat) : K :=
  (if f.dst = k then f.flux else 0) - (if f.src = k then f.flux else 0)

theorem transport_net (f : Flow K) (ns : Nat → NodeFlux K) (k : Nat) :
    (transportFlux f.src f.dst f.flux ns k).influx - (transportFlux f.src f.dst f.flux ns k).outflux =
      (ns k).influx - (ns k).outflux + Flow.into f k := by
  unfold transportFlux Flow.into
  rcases lt_trichotomy f.flux 0 with hf | hf | hf
  · rw [if_neg (not_lt.mpr hf.le), if_pos hf]
    simp only [atNode, collectInflux, collectOutflux, eq_comm (b := k)]
    split_ifs <;> ring
  · rw [hf, if_neg (lt_irrefl _), if_neg (lt_irrefl _)]
    split_ifs <;> ring
  · rw [if_pos hf]
    simp only [atNode, collectInflux, collectOutflux, eq_comm (b := k)]
    split_ifs <;> ring

theorem transport_mono (f : Flow K) (ns : Nat → NodeFlux K) (k : Nat)
    (h : 0 ≤ (ns k).influx ∧ 0 ≤ (ns k).outflux) :
    0 ≤ (transportFlux f.src f.dst f.flux ns k).influx ∧
    0 ≤ (transportFlux f.src f.dst f.flux ns k).outflux := by
  unfold transportFlux
  split_ifs with h1 h2
  · simp only [atNode, collectInflux, collectOutflux]
    split_ifs <;> exact ⟨by linarith [h.1], by linarith [h.2]⟩
  · simp only [atNode, collectInflux, collectOutflux]
    split_ifs <;> exact ⟨by linarith [h.1], by linarith [h.2]⟩
  · exact h

theorem transports_net (fs : List (Flow K)) (ns : Nat → NodeFlux K) (k : Nat) :
    ((fs.foldl (fun ns f => transportFlux f.src f.dst f.flux ns) ns) k).influx -
      ((fs.foldl (fun ns f => transportFlux f.src f.dst f.flux ns) ns) k).outflux =
      (ns k).influx - (ns k).outflux + (fs.map (Flow.into · k)).sum := by
  induction fs generalizing ns with
  | nil => simp
  | cons f fs ih => rw [List.foldl_cons, ih, transport_net, List.map_cons, List.sum_cons]; ring

theorem transports_mono (fs : List (Flow K)) (ns : Nat → NodeFlux K) (k : Nat)
    (h : 0 ≤ (ns k).influx ∧ 0 ≤ (ns k).outflux) :
    0 ≤ ((fs.foldl (fun ns f => transportFlux f.src f.dst f.flux ns) ns) k).influx ∧
    0 ≤ ((fs.foldl (fun ns f => transportFlux f.src f.dst f.flux ns) ns) k).outflux := by
  induction fs generalizing ns with
  | nil => exact h
  | cons f fs ih => rw [List.foldl_cons]; exact ih _ (transport_mono f ns k h)

theorem loop_atNode (f : NodeFlux K → NodeFlux K) (m : Nat) (ns : Nat → NodeFlux K) (k : Nat) :
    loop (fun i ns => atNode i f ns) m ns k = if k < m then f (ns k) else ns k := by
  induction m with
  | zero => simp
  | succ m ih =>
    rw [loop_succ]
    show (if k = m then f (loop (fun i ns => atNode i f ns) m ns k)
      else loop (fun i ns => atNode i f ns) m ns k) = _
    rw [ih]
    by_cases h1 : k = m
    · rw [if_pos h1, if_neg (by omega), if_pos (by omega)]
    · rw [if_neg h1]
      by_cases h2 : k < m
      · rw [if_pos h2, if_pos (by omega)]
      · rw [if_neg h2, if_neg (by omega)]

theorem flows_cancel (N : Nat) (flows : List (Flow K)) (hf : ∀ f ∈ flows, f.src ≤ N ∧ f.dst ≤ N) :
    ∑ k ∈ Finset.range (N + 1), (flows.map (Flow.into · k)).sum = 0 := by
  induction flows with
  | nil => simp
  | cons f fs ih =>
    simp only [List.map_cons, List.sum_cons, Finset.sum_add_distrib]
    have hin := hf f List.mem_cons_self
    have : ∑ k ∈ Finset.range (N + 1), Flow.into f k = 0 := by
      unfold Flow.into
      rw [Finset.sum_sub_distrib, Finset.sum_ite_eq, Finset.sum_ite_eq,
        if_pos (Finset.mem_range.mpr (by omega)), if_pos (Finset.mem_range.mpr (by omega)), sub_self]
    rw [this, zero_add]
    exact ih (fun g hg => hf g (List.mem_cons_of_mem _ hg))

/-- C26: after the flux part of a major step each non-ground node reports as net flux exactly the sum
of the fluxes of the links into it less those out of it, whatever was left from the last step; the
through flux is the smaller of what came in and what went out; and the net fluxes of all nodes,
counting what the ground node collected, sum to zero. -/
theorem c26_bookkeeping (N : Nat) (flows : List (Flow K)) (ns : Nat → NodeFlux K)
    (hf : ∀ f ∈ flows, f.src ≤ N ∧ f.dst ≤ N) :
    let ns' := majorFluxes N flows ns
    (∀ k, k < N → (ns' k).net = (flows.map (Flow.into · k)).sum ∧
      (ns' k).net = (ns' k).influx - (ns' k).outflux ∧
      0 ≤ (ns' k).influx ∧ 0 ≤ (ns' k).outflux ∧
      (ns' k).through = min (ns' k).influx (ns' k).outflux) ∧
    (∑ k ∈ Finset.range N, (ns' k).net) + ((ns' N).influx - (ns' N).outflux) = 0 := by
  intro ns'
  set ns0 := loop (fun i ns => atNode i resetFlows ns) (N + 1) ns with hns0
  set ns1 := flows.reverse.foldl (fun ns f => transportFlux f.src f.dst f.flux ns) ns0 with hns1
  have h0 : ∀ k, k ≤ N → (ns0 k).influx = 0 ∧ (ns0 k).outflux = 0 := by
    intro k hk
    rw [hns0, loop_atNode, if_pos (by omega)]
    exact ⟨rfl, rfl⟩
  have h1 : ∀ k, k ≤ N → (ns1 k).influx - (ns1 k).outflux = (flows.map (Flow.into · k)).sum := by
    intro k hk
    rw [hns1, transports_net, (h0 k hk).1, (h0 k hk).2, List.map_reverse, List.sum_reverse]
    ring
  have h2 : ∀ k, k ≤ N → 0 ≤ (ns1 k).influx ∧ 0 ≤ (ns1 k).outflux := by
    intro k hk
    rw [hns1]
    exact transports_mono _ _ k ⟨(h0 k hk).1.ge, (h0 k hk).2.ge⟩
  have h3 : ∀ k, ns' k = if k < N then integrateFlows (ns1 k) else ns1 k := by
    intro k
    show loop (fun i ns => atNode i integrateFlows ns) N ns1 k = _
    rw [loop_atNode]
  constructor
  · intro k hk
    rw [h3 k, if_pos hk]
    refine ⟨?_, rfl, (h2 k hk.le).1, (h2 k hk.le).2, ?_⟩
    · exact h1 k hk.le
    · show (if (ns1 k).influx < (ns1 k).outflux then (ns1 k).influx else (ns1 k).outflux) =
        min (ns1 k).influx (ns1 k).outflux
      split_ifs with hc
      · rw [min_eq_left hc.le]
      · rw [min_eq_right (not_lt.mp hc)]
  · have e1 : ∀ k ∈ Finset.range N, (ns' k).net = (flows.map (Flow.into · k)).sum := by
      intro k hk
      rw [h3 k, if_pos (Finset.mem_range.mp hk)]
      exact h1 k (Finset.mem_range.mp hk).le
    have e2 : (ns' N).influx - (ns' N).outflux = (flows.map (Flow.into · N)).sum := by
      rw [h3 N, if_neg (lt_irrefl _)]; exact h1 N le_rfl
    rw [Finset.sum_congr rfl e1, e2, ← Finset.sum_range_succ (fun k => (flows.map (Flow.into · k)).sum) N]
    exact flows_cancel N flows hf

/-- Three nodes and ground (3), three flows of either sign, and rubbish left in the nodes: net fluxes,
through flux of node 1. -/
example :
    let flows : List (Flow ℚ) := [⟨0, 1, 5⟩, ⟨2, 1, -3⟩, ⟨1, 3, 1/2⟩]
    let ns := majorFluxes 3 flows (fun _ => ⟨7, 7, 7, 7⟩)
    (ns 0).net = -5 ∧ (ns 1).net = 3/2 ∧ (ns 1).through = 7/2 ∧ (ns 2).net = 3 ∧ (ns 3).net = 7 := by
  decide +kernel

/-- C23: a flux source moves its demand, or the part of it that is not blocked, from its first node to its second,
whatever the potentials; it gains or loses power accordingly. -/
theorem c23_source (demand : K) (blk : Option K) (t : Two K) (pot : Vect K) :
    let t' := sourceFlows { sourceStep demand blk t with pot := pot }
    t'.flux = unblocked demand blk ∧ t'.src 0 = -t'.flux ∧ t'.src 1 = t'.flux ∧ t'.adm = t.adm ∧
    t'.power = -(t'.flux * (pot 0 - pot 1)) ∧
    (blk = none ∨ blk = some 0 → t'.flux = demand) ∧ (blk = some 1 → t'.flux = 0) := by
  intro t'
  have hf : t'.flux = unblocked demand blk := by cases blk <;> rfl
  have h0 : t'.src 0 = -t'.flux := by
    cases blk <;> rfl
  have h1 : t'.src 1 = t'.flux := by
    cases blk <;> rfl
  refine ⟨hf, h0, h1, rfl, ?_, ?_, ?_⟩
  · show -t'.flux * (pot 0 - pot 1) = _
    ring
  · rintro (h | h) <;> rw [hf, h]
    · rfl
    · show demand * (1 - 0) = demand
      ring
  · intro h
    rw [hf, h]
    show demand * (1 - 1) = 0
    ring

/-- C23: a potential source with conductance `g` moves `g` times what its rise exceeds the potential difference by:
nothing flows exactly when the second node is higher by the rise. -/
theorem c23_potential {t : Two K} {g0 : K} (h : IsStamp g0 t.adm) (eff : K) (blk : Option K) (rise : K) (pot : Vect K) :
    let t' := sourcedFlows { potentialStep eff blk rise t with pot := pot }
    ∃ g, IsStamp g t'.adm ∧ 0 ≤ g ∧ t'.flux = g * (rise - (pot 1 - pot 0)) ∧ t'.src 1 = -t'.src 0 ∧
      (0 < g → (t'.flux = 0 ↔ pot 1 - pot 0 = rise)) := by
  intro t'
  obtain ⟨g, hg, hg0, -⟩ := c23_stamp h eff blk
  have ha : t'.adm = (conductorStep eff blk t).adm := rfl
  have hf : t'.flux = g * (rise - (pot 1 - pot 0)) := by
    have e : t'.flux = (pot 0 - pot 1) * (conductorStep eff blk t).adm 0 - (-rise * (conductorStep eff blk t).adm 0) := rfl
    rw [e, hg.1]; ring
  refine ⟨g, by rw [ha]; exact hg, hg0, hf, rfl, fun hpos => ?_⟩
  rw [hf, mul_eq_zero]
  constructor
  · rintro (h1 | h1)
    · exact absurd h1 hpos.ne'
    · linarith
  · intro h1; right; linarith

example : (sourceFlows { sourceStep (4 : ℚ) (some (1/4)) Two.zero with pot := fun i => if i = 0 then 1 else 3 }).flux = 3 ∧
    (sourceFlows { sourceStep (4 : ℚ) (some (1/4)) Two.zero with pot := fun i => if i = 0 then 1 else 3 }).power = 6 := by
  decide +kernel

example : (sourcedFlows { potentialStep (2 : ℚ) none 5 Two.zero with pot := fun i => if i = 0 then 1 else 3 }).flux = 6 := by
  decide +kernel

end Gunns.Props
