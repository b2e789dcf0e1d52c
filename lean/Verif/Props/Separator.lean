import Verif.Fluid.SeparatorStep
import Mathlib.Data.List.GetD

/-!
# C58: separators conserve every constituent

A separator takes a share of constituents out of a flow, holds it for a step and gives it to the exits.  For any number
of separated constituents and any history of pressures, fluxes (in both directions) and mixtures: moles of every
constituent that are taken from the node upstream have been given to the nodes downstream and at the exits, or wait in
the separator.

Not so if the exits are not assigned in the order of ports, if constituents share an exit, if there are more exits than
constituents, or if nothing is left of the flow.
-/

set_option linter.unusedSectionVars false

namespace Gunns.Props

open Gunns Gunns.Fluid Finset

variable {K : Type _} [Field K] [LinearOrder K] [IsStrictOrderedRing K]

/-- What waits in the separator for a constituent never exceeds its share of the flow. -/
theorem held_bounds {c out : Poly K} {s : Separator K} (hs : SepReady c s) (ho : Upstream c out) (flux : K) {i : Nat}
    (hi : i < c.n) :
    0 ≤ heldFor s (fun k => s.fraction k * |flux| * (out.parts (s.index k)).moleFraction) i ∧
    heldFor s (fun k => s.fraction k * |flux| * (out.parts (s.index k)).moleFraction) i ≤
      |flux| * (out.parts i).moleFraction := by
  have hx : 0 ≤ (out.parts i).moleFraction := (ho.mixed.nonneg i (by rw [← ho.fluids.1]; exact hi)).2
  have hb : 0 ≤ |flux| * (out.parts i).moleFraction := mul_nonneg (abs_nonneg _) hx
  unfold heldFor
  by_cases h : ∃ k, k < s.types ∧ s.index k = i
  · obtain ⟨k, hk, hki⟩ := h
    rw [Finset.sum_eq_single k]
    · rw [if_pos hki]
      show 0 ≤ s.fraction k * |flux| * (out.parts (s.index k)).moleFraction ∧
        s.fraction k * |flux| * (out.parts (s.index k)).moleFraction ≤ _
      rw [hki, mul_assoc]
      obtain ⟨f0, f1⟩ := hs.fraction k hk
      exact ⟨mul_nonneg f0 hb, mul_le_of_le_one_left hb f1⟩
    · intro j hj hjk
      rw [if_neg]
      intro e
      exact hjk (hs.distinct j k (mem_range.1 hj) hk (e.trans hki.symm))
    · intro e; exact absurd (mem_range.2 hk) e
  · rw [Finset.sum_eq_zero]
    · exact ⟨le_rfl, hb⟩
    · intro k hk
      rw [if_neg]
      intro e
      exact h ⟨k, mem_range.1 hk, e⟩

/-- One pass.  The node upstream loses the flux; the node downstream receives of every constituent what is not separated;
the exits receive what the pass before has separated, each at its own port; what is separated now is the given fraction
of each constituent in the flow. -/
theorem c58_pass {th : Thermo K} {c : Poly K} {s : Separator K} {a : SepPass K} (hw : GoodWeights c)
    (hs : SepReady c s) (ho : Upstream c a.out) (hz : Sizable a s) (hports : s.ports = s.types + 2) :
    ∃ calls t, passSep th a s = .done calls t ∧ SepReady c t ∧ t.types = s.types ∧ t.ports = s.ports ∧
      t.index = s.index ∧ t.port = s.port ∧ t.fraction = s.fraction ∧
      (∀ k, k < s.types → t.thru k = s.fraction k * (|a.flux| * (a.out.parts (s.index k)).moleFraction)) ∧
      (∀ k i, k < s.types → i < c.n → givenMoles calls (k + 2) i = if s.index k = i then s.thru k else 0) ∧
      ∀ i, i < c.n →
        takenMoles a.out calls (upstream a.ground0 a.ground1 a.flux) i = |a.flux| * (a.out.parts i).moleFraction ∧
        (∀ p, p ≠ upstream a.ground0 a.ground1 a.flux → takenMoles a.out calls p i = 0) ∧
        givenMoles calls (upstream a.ground0 a.ground1 a.flux) i = 0 ∧
        givenMoles calls (1 - upstream a.ground0 a.ground1 a.flux) i =
          |a.flux| * (a.out.parts i).moleFraction - heldFor t t.thru i ∧
        0 ≤ givenMoles calls (1 - upstream a.ground0 a.ground1 a.flux) i := by
  obtain ⟨f1, f2, -, f4⟩ := step_frame a.p0 a.p1 s
  obtain ⟨g1, g2, -, g4, g5⟩ := compute_frame a.flux (fun i => (a.out.parts i).moleFraction) (stepSep a.p0 a.p1 s)
  obtain ⟨u, hu⟩ : ∃ u, u = computeSep a.flux (fun i => (a.out.parts i).moleFraction) (stepSep a.p0 a.p1 s) := ⟨_, rfl⟩
  rw [← hu] at g1 g2 g4 g5
  have fr := f1.trans g1
  have hthru : ∀ k, k < s.types → u.thru k = s.fraction k * |a.flux| * (a.out.parts (s.index k)).moleFraction := by
    intro k hk
    rw [g5, f1.types, if_pos hk, f1.fraction, f1.index]
  have hexit : ∀ k, k < s.types → u.exit k = s.thru k := by
    intro k hk
    rw [g2, f4, if_pos hk]
  have hheld : ∀ i, heldFor u u.thru i =
      heldFor s (fun k => s.fraction k * |a.flux| * (a.out.parts (s.index k)).moleFraction) i := by
    intro i
    unfold heldFor
    rw [fr.types, fr.index]
    refine Finset.sum_congr rfl (fun k hk => ?_)
    rw [hthru k (mem_range.1 hk)]
  have hleft : ∀ i, i < c.n → 0 ≤ leftMoles a.out u i := by
    intro i hi
    rw [leftMoles_eq, g4, hheld]
    have := (held_bounds hs ho a.flux hi).2
    linarith
  have htypes : 0 < s.types := by have := hs.ports; omega
  have hfl : u.flux = 0 ∨ (dblEps < |u.flux| ∧ dblEps < exitFlux u) := by
    rw [g4]
    rcases hz.flux with h | h
    · exact Or.inl h
    · right
      refine ⟨h, ?_⟩
      rcases hz.left with e | e
      · rw [e, abs_zero] at h; exact absurd h (not_lt.2 dblEps_pos.le)
      · have : exitFlux u = |a.flux| * (1 - ∑ k ∈ range s.types, s.fraction k *
            (a.out.parts (s.index k)).moleFraction) := by
          rw [exitFlux_eq, g4, fr.types, mul_sub, mul_one, Finset.mul_sum]
          congr 1
          refine Finset.sum_congr rfl (fun k hk => ?_)
          rw [hthru k (mem_range.1 hk)]; ring
        rw [this]; exact e
  obtain ⟨calls, t, hd, t1, t2, t3, t4, t5, t6, t7, -, t9, t10, t11, t12, t13⟩ :=
    transport_spec (th := th) (s := u) (upstream_cases a.ground0 a.ground1 a.flux) hw ho
      (by rw [fr.types, fr.index]; exact hs.index) (by rw [fr.internal]; exact hs.internal)
      (by rw [fr.types, fr.ports]; exact hports) (by rw [fr.types]; exact htypes) hfl hleft
  have hheldt : ∀ i, heldFor t t.thru i = heldFor u u.thru i := by
    intro i; unfold heldFor; rw [t2, t3, t6]
  refine ⟨calls, t, by unfold passSep; rw [← hu]; exact hd, ?_, t2.trans fr.types, t1.trans fr.ports,
    t3.trans fr.index, t4.trans fr.port, t5.trans fr.fraction, ?_, ?_, ?_⟩
  · refine ⟨?_, ?_, ?_, ?_, ?_, ?_, t10, ?_⟩
    · rw [t1, fr.ports]; exact hs.ports
    · rw [t2, t3, fr.types, fr.index]; exact hs.index
    · rw [t2, t3, fr.types, fr.index]; exact hs.distinct
    · rw [t1, t2, t4, fr.types, fr.port, fr.ports]; exact hs.port
    · rw [t2, t5, fr.types, fr.fraction]; exact hs.fraction
    · intro k hk
      rw [t2] at hk
      rw [t11 k hk, t3, fr.index, fr.fluid]
      rw [fr.types] at hk
      obtain ⟨e1, e2⟩ := hs.fluids k hk
      have sm := sameMix_setTemperature th a.out.temperature (s.fluid k)
      refine ⟨e1.trans sm.fluids, by rw [sm.n]; exact e2.inside, ?_, ?_⟩
      · intro j hj
        rw [sm.n] at hj
        rw [(sm.parts j hj).1]
        exact e2.fractions j hj
      · rw [sm.mweight, sm.mw]; exact e2.weight
    · intro k hk
      rw [t2, fr.types] at hk
      rw [t6, hthru k hk]
      have hi : s.index k < a.out.n := by rw [← ho.fluids.1]; exact hs.index k hk
      exact mul_nonneg (mul_nonneg (hs.fraction k hk).1 (abs_nonneg _)) (ho.mixed.nonneg _ hi).2
  · intro k hk
    rw [t6, hthru k hk, mul_assoc]
  · intro k i hk hi
    have hfk := hs.fluids k hk
    rw [t12 (k + 2) i (by omega), exitCalls_pure hw (by rw [fr.ports]; omega) (by rw [fr.fluid]; exact hfk.1)
      (by rw [fr.fluid, fr.index]; exact hfk.2) hi, hexit k hk, fr.index, fr.fluid]
    by_cases e : s.index k = i
    · rw [if_pos e]
      rcases hz.exits k hk with z | z
      · rw [z]; split_ifs <;> rfl
      · rw [if_pos ⟨e, z⟩]
    · rw [if_neg e, if_neg (fun c => e c.1)]
  · intro i hi
    obtain ⟨k1, k2, k3, k4⟩ := t13 i hi
    rw [g4] at k2 k3
    have hb := held_bounds hs ho a.flux hi
    have k2' : givenMoles calls (1 - upstream a.ground0 a.ground1 a.flux) i =
        |a.flux| * (a.out.parts i).moleFraction - heldFor t t.thru i := by
      rw [k2, hheldt, leftMoles_eq, g4]
      by_cases hf : a.flux = 0
      · rw [if_pos hf, hheld]
        rw [hf, abs_zero, zero_mul] at hb ⊢
        have : heldFor s (fun k => s.fraction k * 0 * (a.out.parts (s.index k)).moleFraction) i = 0 :=
          le_antisymm hb.2 hb.1
        rw [this, sub_zero]
      · rw [if_neg hf]
    refine ⟨k3, k4, k1, k2', ?_⟩
    rw [k2', hheldt, hheld]
    linarith [hb.2]

/-- Moles of constituent `i` given to all nodes by the calls of many passes. -/
def givenTotal (ports : Nat) (calls : List (List (Nat × Collect K))) (i : Nat) : K :=
  (calls.map (fun cs => ∑ p ∈ range ports, givenMoles cs p i)).sum

/-- Moles of constituent `i` taken from all nodes. -/
def takenTotal (ports : Nat) : List (SepPass K) → List (List (Nat × Collect K)) → Nat → K
  | a :: as, cs :: css, i => ∑ p ∈ range ports, takenMoles a.out cs p i + takenTotal ports as css i
  | _, _, _ => 0

/-- All passes of a history are sizable, one after the other. -/
def SizableAll (th : Thermo K) : List (SepPass K) → Separator K → Prop
  | [], _ => True
  | a :: as, s => Sizable a s ∧ ∀ calls t, passSep th a s = .done calls t → SizableAll th as t

theorem sum_ports {n : Nat} (f : Nat → K) {up : Nat} (h : up = 0 ∨ up = 1) :
    ∑ p ∈ range (n + 2), f p = f up + f (1 - up) + ∑ k ∈ range n, f (k + 2) := by
  rw [Finset.sum_range_succ', Finset.sum_range_succ']
  rcases h with rfl | rfl
  · simp only [Nat.sub_zero, zero_add]; ring
  · simp only [Nat.sub_self, zero_add]; ring

/-- Over any history of passes of the same length, what was taken of a constituent was given to some node or waits in the
separator. -/
theorem c58_history {th : Thermo K} {c : Poly K} (as : List (SepPass K)) {s : Separator K} (hw : GoodWeights c)
    (hs : SepReady c s) (ho : ∀ a ∈ as, Upstream c a.out) (hz : SizableAll th as s) (hports : s.ports = s.types + 2) :
    ∃ css t, passesSep th as s = some (css, t) ∧ SepReady c t ∧
      ∀ i, i < c.n → givenTotal s.ports css i + heldFor t t.thru i = takenTotal s.ports as css i + heldFor s s.thru i := by
  induction as generalizing s with
  | nil => exact ⟨[], s, rfl, hs, fun i _ => by simp [givenTotal, takenTotal]⟩
  | cons a as ih =>
    obtain ⟨calls, t, hp, ht, e1, e2, e3, -, -, -, hx, hi⟩ :=
      c58_pass (th := th) hw hs (ho a List.mem_cons_self) hz.1 hports
    obtain ⟨css, u, hq, hu, hb⟩ := ih ht (fun b hb => ho b (List.mem_cons_of_mem _ hb)) (hz.2 calls t hp)
      (by rw [e1, e2]; exact hports)
    refine ⟨calls :: css, u, by simp only [passesSep, hp, hq], hu, fun i hin => ?_⟩
    have hb' := hb i hin
    rw [e2] at hb'
    obtain ⟨m1, m2, m3, m4, -⟩ := hi i hin
    have hcases := upstream_cases a.ground0 a.ground1 a.flux
    have hsum : ∑ p ∈ range s.ports, givenMoles calls p i =
        |a.flux| * (a.out.parts i).moleFraction - heldFor t t.thru i + heldFor s s.thru i := by
      rw [hports, sum_ports _ hcases, m3, m4, zero_add]
      congr 1
      exact Finset.sum_congr rfl (fun k hk => hx k i (mem_range.1 hk) hin)
    have htak : ∑ p ∈ range s.ports, takenMoles a.out calls p i = |a.flux| * (a.out.parts i).moleFraction := by
      rw [hports, sum_ports _ hcases, m1, m2 _ (by omega), add_zero, Finset.sum_eq_zero, add_zero]
      intro k _
      exact m2 _ (by omega)
    simp only [givenTotal, takenTotal, List.map_cons, List.sum_cons] at hb' ⊢
    rw [hsum, htak]
    linarith

/-- The solver sees no moles made or lost: what the exits get is taken from the side downstream, by the pressures. -/
theorem c58_source (p0 p1 : K) {c : Poly K} {s : Separator K} (hs : SepReady c s) (hports : s.ports = s.types + 2)
    (horder : ∀ k, k < s.types → s.port k = k + 2) :
    (stepSep p0 p1 s).source 0 + (stepSep p0 p1 s).source 1 = -∑ k ∈ range s.types, s.thru k ∧
    (p1 ≤ p0 → (stepSep p0 p1 s).source 0 = 0) ∧ (p0 < p1 → (stepSep p0 p1 s).source 1 = 0) ∧
    (∀ k, k < s.types → (stepSep p0 p1 s).source (k + 2) = s.thru k) ∧
    ∑ p ∈ range s.ports, (stepSep p0 p1 s).source p = 0 := by
  obtain ⟨h0, h1, -, h3⟩ := step_source p0 p1 s (fun k hk => (hs.port k hk).1)
  have hx : ∀ k, k < s.types → (stepSep p0 p1 s).source (k + 2) = s.thru k := by
    intro k hk
    rw [← horder k hk]
    refine h3 k hk (fun j a b => ?_)
    rw [horder j b, horder k hk]; omega
  have hsum : (stepSep p0 p1 s).source 0 + (stepSep p0 p1 s).source 1 = -∑ k ∈ range s.types, s.thru k := by
    rw [h0, h1]
    split_ifs <;> ring
  refine ⟨hsum, ?_, ?_, hx, ?_⟩
  · intro h; rw [h0, if_pos h]
  · intro h; rw [h1, if_neg (not_le.2 h)]
  · rw [hports, sum_ports _ (Or.inl rfl), Finset.sum_congr rfl (fun k hk => hx k (mem_range.1 hk))]
    show (stepSep p0 p1 s).source 0 + (stepSep p0 p1 s).source 1 + _ = 0
    rw [hsum]; ring

/-- The exits of a separator that is set up are pure. -/
theorem c58_pure {n : Nat} {types : Nat → Nat} {mw : Nat → K} {temperature pressure : K} {i : Nat} {p : Poly K}
    (hi : i < n) (hw : ∀ j, j < n → 2 * dblEps ≤ mw j ∧ 2 * dblEps * mw j ≤ 1)
    (h : initialise n types mw ⟨temperature, pressure, 0, 0, fun j => if j = i then 1 else 0⟩ = some p) :
    Pure p i ∧ p.n = n ∧ p.types = types ∧ p.mw = mw ∧ p.temperature = temperature := by
  unfold initialise at h
  have hone : ∑ j ∈ range n, (if j = i then (1 : K) else 0) = 1 := by
    rw [Finset.sum_eq_single i]
    · rw [if_pos rfl]
    · intro j _ hj; rw [if_neg hj]
    · intro e; exact absurd (mem_range.2 hi) e
  have hn : normalise n (fun j => if j = i then (1 : K) else 0) = some (fun j => if j = i then (1 : K) else 0) := by
    refine normalise_of_close ?_
    rw [hone, sub_self, abs_zero]
    exact fltEps_pos.le
  have hm : total n (fun j => (if j = i then (1 : K) else 0) / mw j) = 1 / mw i := by
    rw [total_eq_sum, Finset.sum_eq_single i]
    · rw [if_pos rfl]
    · intro j _ hj; rw [if_neg hj, zero_div]
    · intro e; exact absurd (mem_range.2 hi) e
  have hwi : 0 < mw i := by linarith [(hw i hi).1, dblEps_pos (K := K)]
  have hlim : innerLimit dblEps (1 / mw i) = 1 / mw i := by
    refine innerLimit_of_ge ?_
    rw [le_div_iff₀ hwi]
    have := (hw i hi).2
    have : 0 ≤ dblEps * mw i := mul_nonneg dblEps_pos.le hwi.le
    linarith
  by_cases hc : n < 1 ∨ temperature < fltEps ∨ pressure < fltEps
  · rw [if_pos hc] at h; cases h
  · rw [if_neg hc] at h
    simp only [hn, hm, hlim] at h
    obtain rfl := Option.some.inj h
    refine ⟨⟨hi, fun j _ => rfl, ?_⟩, rfl, rfl, rfl, rfl⟩
    show 1 / (1 / mw i) = mw i
    rw [one_div_one_div]

/-- Configuration that is accepted makes a separator that can run. -/
theorem c58_setup {c : Poly K} {ports : Nat} {index port : List Nat} {fraction : List K} {s : Separator K}
    (h : sepAccepted c.n ports index port fraction = true) (h1 : s.ports = ports) (h2 : s.types = index.length)
    (h3 : ∀ k, s.index k = index.getD k 0) (h4 : ∀ k, s.port k = port.getD k 0)
    (h5 : ∀ k, s.fraction k = fraction.getD k 0) (h6 : ∀ k, s.thru k = 0) (h7 : SameFluids c s.internal)
    (h8 : ∀ k, k < s.types → SameFluids c (s.fluid k) ∧ Pure (s.fluid k) (s.index k)) : SepReady c s ∧ 0 < s.types := by
  unfold sepAccepted at h
  simp only [Bool.and_eq_true, decide_eq_true_eq, List.all_eq_true] at h
  obtain ⟨⟨⟨⟨⟨⟨⟨a1, a2⟩, a3⟩, a4⟩, a5⟩, a6⟩, a7⟩, a8⟩ := h
  refine ⟨⟨by rw [h1]; exact a1, ?_, ?_, ?_, ?_, h8, h7, fun k _ => by rw [h6]⟩, by rw [h2]; omega⟩
  · intro k hk
    rw [h2] at hk
    rw [h3, List.getD_eq_getElem _ _ hk]
    exact a7 _ (List.getElem_mem hk)
  · intro j k hj hk e
    rw [h2] at hj hk
    rw [h3, h3, List.getD_eq_getElem _ _ hj, List.getD_eq_getElem _ _ hk] at e
    exact (List.Nodup.getElem_inj_iff a5).1 e
  · intro k hk
    rw [h2, a3] at hk
    rw [h4, List.getD_eq_getElem _ _ hk, h1]
    have := a6 _ (List.getElem_mem hk)
    omega
  · intro k hk
    rw [h2, a4] at hk
    rw [h5, List.getD_eq_getElem _ _ hk]
    exact a8 _ (List.getElem_mem hk)

/-- The solver is told of an exit by its assigned port, but the fluid is given to the port by its place in the list: if
these are not the same, a port for which the solver counts moles of a constituent gets none of it. -/
theorem c58_misrouted {th : Thermo K} {c : Poly K} {s : Separator K} {a : SepPass K} (hw : GoodWeights c)
    (hs : SepReady c s) (ho : Upstream c a.out) (hz : Sizable a s) (hports : s.ports = s.types + 2)
    (hinj : ∀ j k, j < s.types → k < s.types → s.port j = s.port k → j = k) {j k : Nat} (hj : j < s.types)
    (hk : k < s.types) (hjk : j ≠ k) (hport : s.port k = j + 2) :
    ∃ calls t, passSep th a s = .done calls t ∧ (stepSep a.p0 a.p1 s).source (s.port k) = s.thru k ∧
      givenMoles calls (s.port k) (s.index k) = 0 ∧ givenMoles calls (k + 2) (s.index k) = s.thru k := by
  obtain ⟨calls, t, hd, -, -, -, -, -, -, -, hx, -⟩ := c58_pass (th := th) hw hs ho hz hports
  obtain ⟨-, -, -, h3⟩ := step_source a.p0 a.p1 s (fun k hk => (hs.port k hk).1)
  refine ⟨calls, t, hd, h3 k hk (fun i a b e => ?_), ?_, ?_⟩
  · have := hinj i k b hk e; omega
  · rw [hport, hx j _ hj (hs.index k hk), if_neg (fun e => hjk (hs.distinct j k hj hk e))]
  · rw [hx k _ hk (hs.index k hk), if_pos rfl]

/-- Constituents that share an exit with a later one are not counted by the solver. -/
theorem c58_shared (p0 p1 : K) {c : Poly K} {s : Separator K} (hs : SepReady c s) {j k : Nat}
    (hk : k < s.types) (hlast : k + 1 = s.types) (hport : s.port j = s.port k) (hj : 0 < s.thru j) :
    (stepSep p0 p1 s).source (s.port j) = s.thru k ∧ (stepSep p0 p1 s).source (s.port j) < s.thru j + s.thru k := by
  obtain ⟨-, -, -, h3⟩ := step_source p0 p1 s (fun k hk => (hs.port k hk).1)
  have h : (stepSep p0 p1 s).source (s.port j) = s.thru k := by
    rw [hport]
    exact h3 k hk (fun i a b => by omega)
  exact ⟨h, by rw [h]; linarith⟩

/-- If there are more constituents than exits, those at the end of the list are given to no exit. -/
theorem c58_lost {th : Thermo K} {c out : Poly K} {s t : Separator K} {up : Nat} {calls : List (Nat × Collect K)}
    (hup : up = 0 ∨ up = 1) (hs : SepReady c s) (h : transportSep th up out s = .done calls t) {k : Nat}
    (hk : k < s.types) (hmore : s.ports - 2 ≤ k) {p : Nat} (hp : 2 ≤ p) :
    givenMoles calls p (s.index k) = 0 := by
  have hex : givenMoles (exitCalls th out.temperature s) p (s.index k) = 0 := by
    rw [exitCalls_given]
    split_ifs with g
    · obtain ⟨g1, g2, -⟩ := g
      have hp' : p - 2 < s.types := by omega
      obtain ⟨e1, e2⟩ := hs.fluids (p - 2) hp'
      have hin : s.index k < (s.fluid (p - 2)).n := by rw [← e1.1]; exact hs.index k hk
      rw [((sameMix_setTemperature th out.temperature (s.fluid (p - 2))).parts _ hin).1, e2.fractions _ hin, if_neg]
      · rw [mul_zero, zero_div]
      · intro e
        have := hs.distinct k (p - 2) hk hp' e
        omega
    · rfl
  have htwo : ∀ (r : Poly K) (x y : K), givenMoles [(up, Collect.outflux x), (1 - up, Collect.inflow r y)] p
      (s.index k) = 0 := by
    intro r x y
    simp only [givenMoles, List.map_cons, List.map_nil, List.sum_cons, List.sum_nil]
    rw [if_neg (by omega), if_neg (by omega), add_zero, add_zero]
  unfold transportSep at h
  by_cases h1 : s.types < s.ports - 2
  · rw [if_pos h1] at h; cases h
  · rw [if_neg h1] at h
    simp only [] at h
    by_cases h2 : dblEps < |s.flux|
    · rw [if_pos h2] at h
      cases hq : setState out s.internal with
      | thrown q => rw [hq] at h; cases h
      | ok q =>
        rw [hq] at h
        simp only [] at h
        cases hr : depart th out.temperature q s with
        | thrown r => rw [hr] at h; cases h
        | ok r =>
          rw [hr] at h
          cases h
          rw [given_append, hex, htwo, add_zero]
    · rw [if_neg h2] at h
      cases h
      exact hex

/-- If there are more exits than constituents, memory beyond the fluids of the exits is used. -/
theorem c58_beyond (th : Thermo K) (a : SepPass K) {s : Separator K} (h : s.types + 2 < s.ports) :
    passSep th a s = .undefined := by
  obtain ⟨f1, -⟩ := step_frame a.p0 a.p1 s
  obtain ⟨g1, -⟩ := compute_frame a.flux (fun i => (a.out.parts i).moleFraction) (stepSep a.p0 a.p1 s)
  have fr := f1.trans g1
  unfold passSep transportSep
  rw [if_pos (by rw [fr.types, fr.ports]; omega)]

/-- If nothing is left of the flow, the node downstream is given no mass, but its inflow is mixed with the whole flow of
the node upstream, as it was before the separation. -/
theorem c58_all_taken {th : Thermo K} {up : Nat} {out c : Poly K} {s : Separator K} (ho : SameFluids c out)
    (hint : SameFluids c s.internal) (hports : s.ports = s.types + 2) (hflux : dblEps < |s.flux|)
    (hnone : exitFlux s = 0) (node : FNode K) (hn : SameFluids c node.inflow) (h0 : 0 ≤ node.inflow.flowRate)
    (hf : dblEps ≤ out.flowRate) :
    ∃ calls t r, transportSep th up out s = .done calls t ∧ (1 - up, Collect.inflow r 0) ∈ calls ∧
      (collectInflux th 0 r node).influx = node.influx ∧
      (collectInflux th 0 r node).inflow.flowRate = node.inflow.flowRate + out.flowRate ∧
      ∀ i, i < c.n → (r.parts i).massFraction = (out.parts i).massFraction := by
  obtain ⟨q, hq, hss, -, -⟩ := setState_spec (ho.symm.trans hint)
  have hdb := dblEps_pos (K := K)
  have hdep : depart th out.temperature q s = .ok q := by
    unfold depart
    rw [if_neg (fun e => by rw [hnone] at e; exact absurd e.2 (not_lt.2 hdb.le))]
  unfold transportSep
  rw [if_neg (by omega)]
  simp only []
  rw [if_pos hflux, hq]
  simp only [hdep]
  refine ⟨_, _, q, rfl, ?_, ?_, ?_, ?_⟩
  · rw [List.mem_append]
    right
    rw [hnone, zero_mul]
    simp
  · show node.influx + 0 = node.influx
    rw [add_zero]
  · show (addState th.temp q 0 node.inflow).state.flowRate = _
    have hsf : sourceFlow q 0 = out.flowRate := by
      unfold sourceFlow
      rw [abs_zero, if_pos hdb, hss.flowRate]
    have hty : sameTypes node.inflow q = true := sameTypes_of ((ho.trans hss.fluids).symm.trans hn).symm
    unfold addState
    rw [hty, hsf, if_neg (by decide)]
    simp only []
    rw [if_neg (by rw [abs_of_nonneg (by linarith)]; linarith)]
    rfl
  · intro i hi
    exact (hss.parts i (by rw [← ho.1]; exact hi)).1

/-- A mixture of three constituents, by mole fractions. -/
def sepMix (x0 x1 x2 flow : ℚ) : Poly ℚ :=
  let x : Nat → ℚ := fun i => if i = 0 then x0 else if i = 1 then x1 else x2
  let mw : Nat → ℚ := fun i => if i = 0 then 18 else if i = 1 then 28 else 32
  let w := x0 * 18 + x1 * 28 + x2 * 32
  { n := 3
    types := fun i => i
    mw := mw
    parts := fun i => ⟨x i * mw i / w, x i, 300, 100 * x i, flow * (x i * mw i / w), 0, 0⟩
    temperature := 300
    pressure := 100
    flowRate := flow
    mass := 0
    mole := 0
    mweight := w
    enthalpy := 0 }

/-- Takes all water and half of the oxygen out. -/
def sepSample (ports : Nat) (port : Nat → Nat) : Separator ℚ where
  ports := ports
  types := 2
  index := fun k => if k = 0 then 0 else 2
  port := port
  fraction := fun k => if k = 0 then 1 else 1/2
  thru := fun k => if k = 0 then 1/1000 else 2/1000
  exit := fun _ => 0
  fluid := fun k => if k = 0 then sepMix 1 0 0 0 else sepMix 0 0 1 0
  internal := sepMix 0 1 0 0
  source := fun _ => 0
  flux := 0

/-- Humid air. -/
def sepAir : Poly ℚ := sepMix (1/10) (7/10) (2/10) (1/10)

/-- Thermodynamics without content. -/
def sepThermo : Thermo ℚ := ⟨fun _ h => h, fun _ t => t, fun _ _ _ => 1, fun _ _ => 0⟩

theorem sepMix_same (a b c d a' b' c' d' : ℚ) : SameFluids (sepMix a b c d) (sepMix a' b' c' d') :=
  ⟨rfl, fun _ _ => ⟨rfl, rfl⟩⟩

theorem sepMix_weights (a b c d : ℚ) : GoodWeights (sepMix a b c d) := by
  have h : ∀ i : Fin 3, 2 * dblEps ≤ (sepMix 1 0 0 0).mw i ∧ 2 * dblEps * (sepMix 1 0 0 0).mw i ≤ 1 := by decide +kernel
  intro i hi
  exact h ⟨i, hi⟩

theorem sepAir_upstream : Upstream (sepMix 1 0 0 0) sepAir := by
  have h1 : ∀ i : Fin 3, 0 ≤ (sepAir.parts i).massFraction ∧ 0 ≤ (sepAir.parts i).moleFraction := by decide +kernel
  have h2 : ∀ i : Fin 3, (sepAir.parts i).moleFraction * sepAir.mw i = (sepAir.parts i).massFraction * sepAir.mweight := by
    decide +kernel
  exact ⟨sepMix_weights _ _ _ _, sepMix_same _ _ _ _ _ _ _ _,
    ⟨fun i hi => h1 ⟨i, hi⟩, by decide +kernel, by decide +kernel, by decide +kernel, fun i hi => h2 ⟨i, hi⟩⟩,
    by decide +kernel⟩

theorem sepSample_ready {ports : Nat} {port : Nat → Nat} (h3 : 3 ≤ ports)
    (hp : ∀ k, k < 2 → 2 ≤ port k ∧ port k < ports) : SepReady (sepMix 1 0 0 0) (sepSample ports port) := by
  have two : ∀ k, k < 2 → k = 0 ∨ k = 1 := by intro k hk; omega
  have p0 : ∀ i : Fin 3, ((sepMix 1 0 0 0).parts i).massFraction = if i.1 = 0 then 1 else 0 := by decide +kernel
  have p2 : ∀ i : Fin 3, ((sepMix 0 0 1 0).parts i).massFraction = if i.1 = 2 then 1 else 0 := by decide +kernel
  refine ⟨h3, ?_, ?_, hp, ?_, ?_, sepMix_same _ _ _ _ _ _ _ _, ?_⟩
  · intro k hk
    rcases two k hk with rfl | rfl
    · show (0 : Nat) < 3; omega
    · show (2 : Nat) < 3; omega
  · intro j k hj hk e
    rcases two j hj with rfl | rfl <;> rcases two k hk with rfl | rfl
    · rfl
    · exact absurd (show (0 : Nat) = 2 from e) (by decide)
    · exact absurd (show (2 : Nat) = 0 from e) (by decide)
    · rfl
  · intro k hk
    rcases two k hk with rfl | rfl <;> (simp [sepSample]; try norm_num)
  · intro k hk
    rcases two k hk with rfl | rfl
    · exact ⟨sepMix_same _ _ _ _ _ _ _ _, ⟨show 0 < 3 by omega, fun j hj => p0 ⟨j, hj⟩,
        show (sepMix 1 0 0 0).mweight = (sepMix 1 0 0 0).mw 0 by decide +kernel⟩⟩
    · exact ⟨sepMix_same _ _ _ _ _ _ _ _, ⟨show 2 < 3 by omega, fun j hj => p2 ⟨j, hj⟩,
        show (sepMix 0 0 1 0).mweight = (sepMix 0 0 1 0).mw 2 by decide +kernel⟩⟩
  · intro k hk
    rcases two k hk with rfl | rfl <;> (simp [sepSample]; try norm_num)

/-- A pass with a flow backward. -/
def sepBack : SepPass ℚ := ⟨100, 101, false, false, -(1/50), sepAir⟩

theorem sepSample_sizable (port : Nat → Nat) : Sizable sepBack (sepSample 4 port) := by
  refine ⟨Or.inr (by decide +kernel), Or.inr ?_, ?_⟩
  · show dblEps < |(-(1/50) : ℚ)| * (1 - ∑ k ∈ range 2, (if k = 0 then 1 else 1/2) *
      (sepAir.parts (if k = 0 then 0 else 2)).moleFraction)
    decide +kernel
  · intro k hk
    right
    have hk2 : k < 2 := hk
    have : k = 0 ∨ k = 1 := by omega
    rcases this with rfl | rfl
    · show dblEps < (1/1000 : ℚ) * (sepMix 1 0 0 0).mweight
      decide +kernel
    · show dblEps < (2/1000 : ℚ) * (sepMix 0 0 1 0).mweight
      decide +kernel

/-- The calls of a pass in the sample, in moles of the three constituents at each port. -/
def sepSees (o : SepOutcome ℚ) : Option (List (List ℚ)) :=
  match o with
  | .done calls _ => some ((List.range 4).map (fun p => (List.range 3).map (fun i => givenMoles calls p i)))
  | _ => none

/-- All hypotheses can be met, for two constituents at ports 2 and 3. -/
example : SepReady (sepMix 1 0 0 0) (sepSample 4 (fun k => k + 2)) ∧ Upstream (sepMix 1 0 0 0) sepBack.out ∧
    Sizable sepBack (sepSample 4 (fun k => k + 2)) ∧ GoodWeights (sepMix 1 0 0 0) ∧
    sepAccepted 3 4 [0, 2] [2, 3] [1, (1/2 : ℚ)] = true :=
  ⟨sepSample_ready (by omega) (fun k hk => by omega), sepAir_upstream, sepSample_sizable _, sepMix_weights _ _ _ _,
    by decide +kernel⟩

/-- Port 0 gets dried air, ports 2 and 3 what was held of water and oxygen. -/
example : sepSees (passSep sepThermo sepBack (sepSample 4 (fun k => k + 2))) =
    some [[0, 7/500, 1/500], [0, 0, 0], [1/1000, 0, 0], [0, 0, 2/1000]] := by decide +kernel

/-- With the ports exchanged, which is accepted, the nodes get the same, but the solver is told the opposite. -/
example : sepAccepted 3 4 [0, 2] [3, 2] [1, (1/2 : ℚ)] = true ∧
    sepSees (passSep sepThermo sepBack (sepSample 4 (fun k => 3 - k))) =
      some [[0, 7/500, 1/500], [0, 0, 0], [1/1000, 0, 0], [0, 0, 2/1000]] ∧
    (stepSep 100 101 (sepSample 4 (fun k => 3 - k))).source 3 = 1/1000 ∧
    (stepSep 100 101 (sepSample 4 (fun k => 3 - k))).source 2 = 2/1000 := by decide +kernel

/-- Both at one port, which is accepted too: the oxygen is lost, the solver counts only it. -/
example : sepAccepted 3 3 [0, 2] [2, 2] [1, (1/2 : ℚ)] = true ∧
    sepSees (passSep sepThermo sepBack (sepSample 3 (fun _ => 2))) =
      some [[0, 7/500, 1/500], [0, 0, 0], [1/1000, 0, 0], [0, 0, 0]] ∧
    (stepSep 100 101 (sepSample 3 (fun _ => 2))).source 2 = 2/1000 := by decide +kernel

/-- Five ports with two constituents are accepted. -/
example : sepAccepted 3 5 [0, 2] [2, 4] [1, (1/2 : ℚ)] = true ∧
    sepSees (passSep sepThermo sepBack (sepSample 5 (fun k => 2 * k + 2))) = none := by decide +kernel

/-- Of pure water nothing is left. -/
example : exitFlux (computeSep (1/50 : ℚ) (fun i => if i = 0 then 1 else 0) (stepSep 101 100 (sepSample 4 (fun k => k + 2)))) = 0 := by
  decide +kernel

end Gunns.Props
