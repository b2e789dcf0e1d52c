import Verif.Elect.PvRegShunt
import Verif.Elect.PvRegTrips
import Verif.Props.PvArray
import Mathlib.Data.List.Nodup
import Mathlib.Data.List.Perm.Subperm

/-!
# C80: the shunting regulator of the solar array

The specification of the loading is about prefixes of the load order and sums over them.
-/

set_option linter.unusedSectionVars false

namespace Gunns.Props

open Gunns Gunns.Pv

section Field

variable {K : Type} [Field K] [LinearOrder K] [IsStrictOrderedRing K]

/-! ## The load order -/

private theorem mem_default (sections : List ℕ) (x : ℕ × ℕ) :
    x ∈ defaultOrder sections ↔ ∃ n, sections[x.1]? = some n ∧ x.2 < n := by
  unfold defaultOrder
  simp only [List.mem_flatMap, List.mem_range, List.mem_map]
  constructor
  · rintro ⟨i, hi, j, hj, rfl⟩
    refine ⟨sections[i], List.getElem?_eq_getElem hi, ?_⟩
    simpa [List.getD_eq_getElem?_getD, List.getElem?_eq_getElem hi] using hj
  · rintro ⟨n, h1, h2⟩
    obtain ⟨hi, e⟩ := List.getElem?_eq_some_iff.1 h1
    refine ⟨x.1, hi, x.2, ?_, rfl⟩
    simpa [List.getD_eq_getElem?_getD, h1] using h2

private theorem default_nodup (sections : List ℕ) : (defaultOrder sections).Nodup := by
  unfold defaultOrder
  rw [List.nodup_flatMap]
  refine ⟨fun i _ => (List.nodup_range).map fun a b h => by simpa using h, ?_⟩
  refine (List.nodup_range (n := sections.length)).pairwise_of_forall_ne ?_
  intro i _ j _ hij
  rw [Function.onFun, List.disjoint_left]
  intro x hx hy
  obtain ⟨u, -, rfl⟩ := List.mem_map.1 hx
  obtain ⟨w, -, e⟩ := List.mem_map.1 hy
  exact hij (congrArg Prod.fst e).symm

private theorem default_length (sections : List ℕ) : (defaultOrder sections).length = sections.sum := by
  unfold defaultOrder
  rw [List.length_flatMap]
  have : (List.map (fun i => ((List.range (sections.getD i 0)).map fun j => (i, j)).length) (List.range sections.length)) = sections := by
    apply List.ext_getElem
    · simp
    · intro i h1 h2
      simp [List.getElem?_eq_getElem h2]
  rw [this]

/-- **C80**: an accepted load order names every string of the array exactly once. -/
theorem c80_order (sections : List ℕ) (order : List (ℕ × ℕ)) (h : orderValid sections order = true) :
    order.Nodup ∧ order.Perm (defaultOrder sections) ∧
      ∀ x, x ∈ order ↔ ∃ n, sections[x.1]? = some n ∧ x.2 < n := by
  unfold orderValid at h
  simp only [Bool.and_eq_true, decide_eq_true_eq, List.all_eq_true, List.mem_range] at h
  obtain ⟨hl, ha⟩ := h
  have hnd : order.Nodup := by
    rw [List.nodup_iff_getElem?_ne_getElem?]
    intro i j hij hj
    have hi : i < order.length := hij.trans hj
    have := ha i hi
    rw [List.getElem?_eq_getElem hi] at this
    simp only [Bool.and_eq_true, List.all_eq_true, List.mem_range] at this
    have := this.2 j hj
    simp only [hij, decide_true, Bool.true_and, Bool.not_eq_true', decide_eq_false_iff_not] at this
    rw [List.getElem?_eq_getElem hi]
    exact fun e => this e.symm
  have hsub : order ⊆ defaultOrder sections := by
    intro x hx
    obtain ⟨i, hi, rfl⟩ := List.getElem_of_mem hx
    have := ha i hi
    rw [List.getElem?_eq_getElem hi] at this
    simp only [Bool.and_eq_true] at this
    rw [mem_default]
    have h1 := this.1
    cases hs : sections[order[i].1]? with
    | none => simp [hs] at h1
    | some n =>
      simp only [hs, decide_eq_true_eq] at h1
      exact ⟨n, rfl, h1⟩
  have hp : order.Perm (defaultOrder sections) :=
    (hnd.subperm hsub).perm_of_length_le (by rw [default_length, hl])
  exact ⟨hnd, hp, fun x => by rw [hp.mem_iff, mem_default]⟩

/-- **C80**: and so does the one that is made when none is given. -/
theorem c80_default_order (sections : List ℕ) : (defaultOrder sections).Nodup ∧ (defaultOrder sections).length = sections.sum ∧
    ∀ x, x ∈ defaultOrder sections ↔ ∃ n, sections[x.1]? = some n ∧ x.2 < n :=
  ⟨default_nodup sections, default_length sections, mem_default sections⟩

example : orderValid [2, 1] [(1, 0), (0, 1), (0, 0)] = true ∧ orderValid [2, 1] [(1, 0), (0, 1), (0, 1)] = false ∧
    defaultOrder [2, 1] = [(0, 0), (0, 1), (1, 0)] := by decide +kernel

/-! ## The loading of the strings -/

/-- The strings that are not shunted are at the regulated voltage. -/
def FreshStrings (l : List (ℕ × ℕ)) (vreg : K) (s : ℕ × ℕ → RegString K) : Prop :=
  ∀ x ∈ l, (s x).shunted = false → (s x).term = (s x).atVoltage vreg

/-- The power and the conductance of strings at a voltage. -/
def powerAt (s : ℕ × ℕ → RegString K) (v : K) (l : List (ℕ × ℕ)) : K := (l.map fun x => ((s x).atVoltage v).power).sum

/-- The same for the conductance. -/
def conductanceAt (s : ℕ × ℕ → RegString K) (v : K) (l : List (ℕ × ℕ)) : K := (l.map fun x => ((s x).atVoltage v).conductance).sum

/-- The power of strings at a conductance. -/
def powerShunted (s : ℕ × ℕ → RegString K) (g : K) (l : List (ℕ × ℕ)) : K := (l.map fun x => ((s x).atConductance g).power).sum

private theorem set_same (s : ℕ × ℕ → RegString K) (x : ℕ × ℕ) (t : RegString K) : setString s x t x = t := if_pos rfl

private theorem set_other (s : ℕ × ℕ → RegString K) (x y : ℕ × ℕ) (t : RegString K) (h : y ≠ x) : setString s x t y = s y := if_neg h

/-- A string put on the shunt. -/
private def shuntOf (g : K) (t : RegString K) : RegString K :=
  { t with
    term := t.atConductance g
    shunted := true }

/-- A string put at a voltage. -/
private def loadOf (v : K) (t : RegString K) : RegString K :=
  { t with
    term := t.atVoltage v
    shunted := false }

private theorem powerShunted_congr (s t : ℕ × ℕ → RegString K) (g : K) (l : List (ℕ × ℕ)) (h : ∀ x ∈ l, s x = t x) :
    powerShunted s g l = powerShunted t g l := by
  unfold powerShunted
  rw [List.map_congr_left fun x hx => by rw [h x hx]]

private theorem powerAt_congr (s t : ℕ × ℕ → RegString K) (g : K) (l : List (ℕ × ℕ)) (h : ∀ x ∈ l, s x = t x) :
    powerAt s g l = powerAt t g l := by
  unfold powerAt
  rw [List.map_congr_left fun x hx => by rw [h x hx]]

private theorem conductanceAt_congr (s t : ℕ × ℕ → RegString K) (g : K) (l : List (ℕ × ℕ)) (h : ∀ x ∈ l, s x = t x) :
    conductanceAt s g l = conductanceAt t g l := by
  unfold conductanceAt
  rw [List.map_congr_left fun x hx => by rw [h x hx]]

private theorem shunt_phase (vreg g power : K) (l : List (ℕ × ℕ)) (hn : l.Nodup) (a : Loading K) (hc : a.inPower ≥ power ∨ power < 0) :
    let b := l.foldl (Loading.one vreg g power) a
    b.inG = a.inG ∧ b.inPower = a.inPower ∧ b.shuntPower = a.shuntPower + powerShunted a.strings g l ∧
      (∀ x ∈ l, b.strings x = shuntOf g (a.strings x)) ∧ ∀ x, x ∉ l → b.strings x = a.strings x := by
  induction l generalizing a with
  | nil => simp [powerShunted]
  | cons x l ih =>
    simp only [List.foldl_cons]
    obtain ⟨hx, hn'⟩ := List.nodup_cons.1 hn
    have e : Loading.one vreg g power a x = { a with
        shuntPower := a.shuntPower + ((a.strings x).atConductance g).power
        strings := setString a.strings x (shuntOf g (a.strings x)) } := if_pos hc
    rw [e]
    obtain ⟨h1, h2, h3, h4, h5⟩ := ih hn' { a with
        shuntPower := a.shuntPower + ((a.strings x).atConductance g).power
        strings := setString a.strings x (shuntOf g (a.strings x)) } hc
    have ho : ∀ y ∈ l, setString a.strings x (shuntOf g (a.strings x)) y = a.strings y := fun y hy =>
      set_other _ _ _ _ fun e => hx (e ▸ hy)
    refine ⟨h1, h2, ?_, ?_, ?_⟩
    · rw [h3]
      simp only
      rw [powerShunted_congr _ a.strings g l ho]
      unfold powerShunted
      simp [add_assoc]
    · intro y hy
      rcases List.mem_cons.1 hy with rfl | hy
      · rw [h5 _ hx]
        exact set_same _ _ _
      · rw [h4 y hy]
        simp only
        rw [ho y hy]
    · intro y hy
      rw [List.mem_cons, not_or] at hy
      rw [h5 y hy.2]
      exact set_other _ _ _ _ hy.1

private theorem load_phase (vreg g power : K) (l : List (ℕ × ℕ)) (hn : l.Nodup) (a : Loading K) (hf : FreshStrings l vreg a.strings) :
    let b := l.foldl (Loading.one vreg g power) a
    ∃ k ≤ l.length, b.inG = a.inG + conductanceAt a.strings vreg (l.take k) ∧
      b.inPower = a.inPower + powerAt a.strings vreg (l.take k) ∧ b.shuntPower = a.shuntPower + powerShunted a.strings g (l.drop k) ∧
      (∀ x ∈ l.take k, b.strings x = loadOf vreg (a.strings x)) ∧ (∀ x ∈ l.drop k, b.strings x = shuntOf g (a.strings x)) ∧
      (∀ x, x ∉ l → b.strings x = a.strings x) ∧ (power < 0 → k = 0) ∧
      (0 ≤ power → (∀ j < k, a.inPower + powerAt a.strings vreg (l.take j) < power) ∧
        (k < l.length → power ≤ a.inPower + powerAt a.strings vreg (l.take k))) := by
  induction l generalizing a with
  | nil => exact ⟨0, le_rfl, by simp [conductanceAt, powerAt, powerShunted]⟩
  | cons x l ih =>
    obtain ⟨hx, hn'⟩ := List.nodup_cons.1 hn
    by_cases hc : a.inPower ≥ power ∨ power < 0
    · obtain ⟨h1, h2, h3, h4, h5⟩ := shunt_phase vreg g power (x :: l) hn a hc
      refine ⟨0, Nat.zero_le _, ?_⟩
      simp only [List.take_zero, List.drop_zero]
      refine ⟨by rw [h1]; simp [conductanceAt], by rw [h2]; simp [powerAt], h3, fun y hy => by simp at hy, h4, h5, fun _ => trivial,
        fun hp => ⟨fun j hj => absurd hj (Nat.not_lt_zero j), fun _ => ?_⟩⟩
      rcases hc with hc | hc
      · simpa [powerAt] using hc
      · exact absurd hp (not_le.2 hc)
    · have hxf : (if (a.strings x).shunted then { a.strings x with
          term := (a.strings x).atVoltage vreg
          shunted := false } else a.strings x) = loadOf vreg (a.strings x) := by
        cases hs : (a.strings x).shunted with
        | true => rfl
        | false =>
          have := hf x (by simp) hs
          unfold loadOf
          rw [← this, ← hs]
          simp
      have e : Loading.one vreg g power a x = { a with
          inG := a.inG + ((a.strings x).atVoltage vreg).conductance
          inPower := a.inPower + ((a.strings x).atVoltage vreg).power
          strings := setString a.strings x (loadOf vreg (a.strings x)) } := by
        unfold Loading.one
        rw [if_neg hc]
        simp only [hxf]
        rfl
      have ho : ∀ y ∈ l, setString a.strings x (loadOf vreg (a.strings x)) y = a.strings y := fun y hy =>
        set_other _ _ _ _ fun e => hx (e ▸ hy)
      obtain ⟨k, hk, i1, i2, i3, i4, i5, i6, i7, i8⟩ := ih hn' { a with
          inG := a.inG + ((a.strings x).atVoltage vreg).conductance
          inPower := a.inPower + ((a.strings x).atVoltage vreg).power
          strings := setString a.strings x (loadOf vreg (a.strings x)) } (by
        intro y hy hs
        simp only [ho y hy] at hs ⊢
        exact hf y (List.mem_cons_of_mem _ hy) hs)
      simp only at i1 i2 i3 i4 i5 i6 i8
      have tk : ∀ (j : ℕ), ∀ y ∈ l.take j, setString a.strings x (loadOf vreg (a.strings x)) y = a.strings y := fun j y hy =>
        ho y (List.mem_of_mem_take hy)
      have pt : ∀ j, a.inPower + powerAt a.strings vreg ((x :: l).take (j + 1)) =
          a.inPower + ((a.strings x).atVoltage vreg).power + powerAt (setString a.strings x (loadOf vreg (a.strings x))) vreg (l.take j) := by
        intro j
        rw [powerAt_congr _ a.strings vreg _ (tk j)]
        unfold powerAt
        simp [add_assoc]
      rw [not_or] at hc
      have hp0 : 0 ≤ power := not_lt.1 hc.2
      refine ⟨k + 1, Nat.succ_le_succ hk, ?_⟩
      rw [List.foldl_cons, e]
      simp only [List.take_succ_cons, List.drop_succ_cons]
      refine ⟨?_, ?_, ?_, ?_, ?_, ?_, fun hp => absurd hp hc.2, fun _ => ⟨?_, ?_⟩⟩
      · rw [i1, conductanceAt_congr _ a.strings vreg _ (tk k)]
        unfold conductanceAt
        simp [add_assoc]
      · rw [i2, powerAt_congr _ a.strings vreg _ (tk k)]
        unfold powerAt
        simp [add_assoc]
      · rw [i3, powerShunted_congr _ a.strings g _ fun y hy => ho y (List.mem_of_mem_drop hy)]
      · intro y hy
        rcases List.mem_cons.1 hy with rfl | hy
        · rw [i6 _ hx]
          exact set_same _ _ _
        · rw [i4 y hy, tk k y hy]
      · intro y hy
        rw [i5 y hy, ho y (List.mem_of_mem_drop hy)]
      · intro y hy
        rw [List.mem_cons, not_or] at hy
        rw [i6 y hy.2]
        exact set_other _ _ _ _ hy.1
      · intro j hj
        cases j with
        | zero => simpa [powerAt] using hc.1
        | succ j =>
          rw [pt j]
          exact (i8 hp0).1 j (by omega)
      · intro hl
        have e2 := pt k
        rw [List.take_succ_cons] at e2
        rw [e2]
        exact (i8 hp0).2 (by simpa using hl)

/-- **C80**: the strings are loaded in their order: a first part of them is at the regulated voltage and the rest is shunted.  The
first part is the least whose power meets the demand, or all strings if none does, and no string if the demand is
negative.  The sums of power and conductance are those of the parts, whatever was loaded or shunted before. -/
theorem c80_load (r : RegShunt K) (power : K) (hn : r.order.Nodup) (hf : FreshStrings r.order r.vreg r.strings) :
    ∃ k ≤ r.order.length,
      (∀ x ∈ r.order.take k, ((r.loadArray power).strings x).term = (r.strings x).atVoltage r.vreg ∧
        ((r.loadArray power).strings x).shunted = false) ∧
      (∀ x ∈ r.order.drop k, ((r.loadArray power).strings x).term = (r.strings x).atConductance r.shuntG ∧
        ((r.loadArray power).strings x).shunted = true) ∧
      (∀ x, x ∉ r.order → (r.loadArray power).strings x = r.strings x) ∧
      (r.loadArray power).inPower = powerAt r.strings r.vreg (r.order.take k) ∧
      (r.loadArray power).inG = conductanceAt r.strings r.vreg (r.order.take k) ∧
      (r.loadArray power).shuntPower = powerShunted r.strings r.shuntG (r.order.drop k) ∧ (power < 0 → k = 0) ∧
      (0 ≤ power → (∀ j < k, powerAt r.strings r.vreg (r.order.take j) < power) ∧
        (k < r.order.length → power ≤ powerAt r.strings r.vreg (r.order.take k))) := by
  obtain ⟨k, hk, i1, i2, i3, i4, i5, i6, i7, i8⟩ := load_phase r.vreg r.shuntG power r.order hn ⟨0, 0, 0, r.strings⟩ hf
  simp only [zero_add] at i1 i2 i3 i8
  refine ⟨k, hk, fun x hx => ?_, fun x hx => ?_, i6, i2, i1, i3, i7, i8⟩
  · have := i4 x hx
    exact ⟨(congrArg RegString.term this), congrArg RegString.shunted this⟩
  · have := i5 x hx
    exact ⟨(congrArg RegString.term this), congrArg RegString.shunted this⟩

/-- Strings with the same curves. -/
def SameCurves (s t : ℕ × ℕ → RegString K) : Prop := ∀ x, (s x).atVoltage = (t x).atVoltage ∧ (s x).atConductance = (t x).atConductance

private theorem load_keeps (r : RegShunt K) (power : K) (hn : r.order.Nodup) (hf : FreshStrings r.order r.vreg r.strings) :
    FreshStrings r.order r.vreg (r.loadArray power).strings ∧ SameCurves (r.loadArray power).strings r.strings := by
  obtain ⟨k, hk, i1, i2, i3, i4, i5, i6, i7, i8⟩ := load_phase r.vreg r.shuntG power r.order hn ⟨0, 0, 0, r.strings⟩ hf
  have h4 : ∀ x ∈ r.order.take k, (r.loadArray power).strings x = loadOf r.vreg (r.strings x) := i4
  have h5 : ∀ x ∈ r.order.drop k, (r.loadArray power).strings x = shuntOf r.shuntG (r.strings x) := i5
  have h6 : ∀ x, x ∉ r.order → (r.loadArray power).strings x = r.strings x := i6
  have split : ∀ x ∈ r.order, x ∈ r.order.take k ∨ x ∈ r.order.drop k := by
    intro x hx
    rw [← List.take_append_drop k r.order, List.mem_append] at hx
    exact hx
  constructor
  · intro x hx hs
    rcases split x hx with h | h
    · rw [h4 x h]
      rfl
    · rw [h5 x h] at hs
      exact absurd hs (by simp [shuntOf])
  · intro x
    by_cases hx : x ∈ r.order
    · rcases split x hx with h | h
      · rw [h4 x h]
        exact ⟨rfl, rfl⟩
      · rw [h5 x h]
        exact ⟨rfl, rfl⟩
    · rw [h6 x hx]
      exact ⟨rfl, rfl⟩

private theorem judge_keeps (r : RegShunt K) (v1 : K) (n : ℕ) (hn : r.order.Nodup) (hf : FreshStrings r.order r.vreg r.strings) :
    (r.judge v1 n).2.order = r.order ∧ (r.judge v1 n).2.vreg = r.vreg ∧
      FreshStrings r.order r.vreg (r.judge v1 n).2.strings ∧ SameCurves (r.judge v1 n).2.strings r.strings := by
  have base : r.order = r.order ∧ r.vreg = r.vreg ∧ FreshStrings r.order r.vreg r.strings ∧ SameCurves r.strings r.strings :=
    ⟨rfl, rfl, hf, fun _ => ⟨rfl, rfl⟩⟩
  have ld : ∀ (q : RegShunt K) (p : K), q.order = r.order → q.vreg = r.vreg → q.strings = r.strings →
      FreshStrings r.order r.vreg (q.loadArray p).strings ∧ SameCurves (q.loadArray p).strings r.strings := by
    intro q p h1 h2 h3
    have := load_keeps q p (by rw [h1]; exact hn) (by rw [h1, h2, h3]; exact hf)
    rw [h1, h2, h3] at this
    exact this
  unfold RegShunt.judge
  by_cases ho : r.operating = true
  · rw [if_pos ho]
    by_cases hb : r.reg = true ∧ v1 > r.vreg
    · simp only [if_pos hb, Bool.false_eq_true, if_false]
      by_cases h0 : n > 0
      · rw [if_pos h0]
        split_ifs
        · exact base
        · exact base
        · exact ⟨rfl, rfl, ld _ (-1) rfl rfl rfl⟩
      · rw [if_neg h0]
        exact base
    · simp only [if_neg hb]
      by_cases h0 : n > 0
      · rw [if_pos h0]
        by_cases hr : r.reg = true
        · rw [if_pos hr]
          have := ld r (r.demand v1) rfl rfl rfl
          split_ifs
          · exact ⟨rfl, rfl, this⟩
          · exact ⟨rfl, rfl, this⟩
          · exact ⟨rfl, rfl, this⟩
        · rw [if_neg hr]
          split_ifs
          · exact base
          · exact base
          · exact ⟨rfl, rfl, ld r (-1) rfl rfl rfl⟩
      · rw [if_neg h0]
        exact base
  · rw [if_neg ho]
    exact base

private theorem confirm_fields (r : RegShunt K) (s : Sense K) (v1 : K) (n : ℕ) :
    (r.confirm s v1 n).2.order = (r.judge v1 n).2.order ∧ (r.confirm s v1 n).2.vreg = (r.judge v1 n).2.vreg ∧
      (r.confirm s v1 n).2.strings = (r.judge v1 n).2.strings ∧ (r.confirm s v1 n).2.inPower = (r.judge v1 n).2.inPower ∧
      (r.confirm s v1 n).2.bulk = (r.judge v1 n).2.bulk ∧ (r.confirm s v1 n).2.occurred = (r.judge v1 n).2.occurred ∧
      (r.confirm s v1 n).2.powered = (r.judge v1 n).2.powered ∧ (r.confirm s v1 n).2.enabled = (r.judge v1 n).2.enabled ∧
      (r.confirm s v1 n).2.adm3 = (r.judge v1 n).2.adm3 ∧ (r.confirm s v1 n).2.shuntPower = (r.judge v1 n).2.shuntPower ∧
      (r.confirm s v1 n).2.inG = (r.judge v1 n).2.inG := by
  unfold RegShunt.confirm
  simp only
  by_cases h1 : n > 0 ∧ (r.judge v1 n).1 ≠ .reject
  · simp only [if_pos h1]
    by_cases h2 : RegShunt.operating { (r.judge v1 n).2 with flux := (r.judge v1 n).2.fluxAt v1 } = true
    · simp only [if_pos h2]
      exact ⟨trivial, trivial, trivial, trivial, trivial, trivial, trivial, trivial, trivial, trivial, trivial⟩
    · simp only [if_neg h2]
      exact ⟨trivial, trivial, trivial, trivial, trivial, trivial, trivial, trivial, trivial, trivial, trivial⟩
  · simp only [if_neg h1]
    exact ⟨trivial, trivial, trivial, trivial, trivial, trivial, trivial, trivial, trivial, trivial, trivial⟩

private theorem loadAll_spec (vreg : K) (l : List (ℕ × ℕ)) (s : ℕ × ℕ → RegString K) (c : K) :
    let b := l.foldl (fun (a : (ℕ × ℕ → RegString K) × K) x => (setString a.1 x { a.1 x with
      term := (a.1 x).atVoltage vreg
      shunted := false }, a.2 + ((a.1 x).atVoltage vreg).current)) (s, c)
    b.2 = c + (l.map fun x => ((s x).atVoltage vreg).current).sum ∧ SameCurves b.1 s ∧
      ∀ x, (x ∈ l ∨ ((s x).term = (s x).atVoltage vreg ∧ (s x).shunted = false)) →
        (b.1 x).term = (s x).atVoltage vreg ∧ (b.1 x).shunted = false := by
  induction l generalizing s c with
  | nil =>
    refine ⟨by simp, fun _ => ⟨rfl, rfl⟩, ?_⟩
    rintro x (h | h)
    · simp at h
    · exact h
  | cons y l ih =>
    simp only [List.foldl_cons]
    obtain ⟨h1, h2, h3⟩ := ih (setString s y { s y with
      term := (s y).atVoltage vreg
      shunted := false }) (c + ((s y).atVoltage vreg).current)
    have hs : ∀ x, (setString s y { s y with
        term := (s y).atVoltage vreg
        shunted := false } x).atVoltage = (s x).atVoltage ∧ (setString s y { s y with
        term := (s y).atVoltage vreg
        shunted := false } x).atConductance = (s x).atConductance := by
      intro x
      by_cases hx : x = y
      · rw [hx, set_same]
        exact ⟨rfl, rfl⟩
      · rw [set_other _ _ _ _ hx]
        exact ⟨rfl, rfl⟩
    refine ⟨?_, fun x => ⟨(h2 x).1.trans (hs x).1, (h2 x).2.trans (hs x).2⟩, ?_⟩
    · rw [h1, List.map_cons, List.sum_cons, ← add_assoc]
      congr 2
      exact List.map_congr_left fun x _ => by rw [(hs x).1]
    · intro x hx
      have := h3 x (by
        by_cases hxy : x = y
        · right
          rw [hxy, set_same]
          exact ⟨rfl, rfl⟩
        · rw [set_other _ _ _ _ hxy]
          rcases hx with hx | hx
          · rcases List.mem_cons.1 hx with e | hx
            · exact absurd e hxy
            · exact Or.inl hx
          · exact Or.inr hx)
      rw [(hs x).1] at this
      exact this

/-- **C80**: a step puts every string at the regulated voltage, the maximum current is the sum of the strings' currents there, and
from then on, through any solutions of the network, the strings that are not shunted stay at the regulated voltage. -/
theorem c80_step (a : ArrayCurve K) (sections : List ℕ) (r0 r : RegShunt K) (h : r0.step a sections = some r)
    (ho : orderValid sections r0.order = true ∨ r0.order = defaultOrder sections) :
    r.order = r0.order ∧ r.vreg = r0.regulated ∧ SameCurves r.strings r0.strings ∧
      (∀ x ∈ r.order, (r.strings x).term = (r.strings x).atVoltage r.vreg ∧ (r.strings x).shunted = false) ∧
      r.maxCurrent = (r.order.map fun x => ((r.strings x).atVoltage r.vreg).current).sum ∧
      (∃ g, a.predictLoad r.vreg = some (r.bulk, g)) := by
  have hp : r0.order.Perm (defaultOrder sections) := by
    rcases ho with ho | ho
    · exact (c80_order sections _ ho).2.1
    · rw [ho]
  unfold RegShunt.step RegShunt.maxOut at h
  simp only at h
  cases hl : a.predictLoad r0.regulated with
  | none => simp [hl] at h
  | some x =>
    obtain ⟨p, g⟩ := x
    simp only [hl, Option.some.injEq] at h
    have l1 : (loadAll r0.regulated (defaultOrder sections) r0.strings).2 = _ :=
      (loadAll_spec r0.regulated (defaultOrder sections) r0.strings 0).1
    have l2 : SameCurves (loadAll r0.regulated (defaultOrder sections) r0.strings).1 r0.strings :=
      (loadAll_spec r0.regulated (defaultOrder sections) r0.strings 0).2.1
    have l3 : ∀ x, _ → ((loadAll r0.regulated (defaultOrder sections) r0.strings).1 x).term = _ ∧
        ((loadAll r0.regulated (defaultOrder sections) r0.strings).1 x).shunted = false :=
      (loadAll_spec r0.regulated (defaultOrder sections) r0.strings 0).2.2
    have e1 : r.order = r0.order ∧ r.vreg = r0.regulated ∧ r.strings = (loadAll r0.regulated (defaultOrder sections) r0.strings).1 ∧
        r.maxCurrent = (loadAll r0.regulated (defaultOrder sections) r0.strings).2 ∧ r.bulk = p := by
      rw [← h]
      unfold RegShunt.initial RegShunt.minor
      simp only
      split_ifs <;> exact ⟨rfl, rfl, rfl, rfl, rfl⟩
    obtain ⟨a1, a2, a3, a4, a5⟩ := e1
    rw [a1, a2, a3, a4, a5]
    refine ⟨rfl, rfl, l2, fun x hx => ?_, ?_, g, hl⟩
    · rw [(l2 x).1]
      exact l3 x (Or.inl (hp.mem_iff.1 hx))
    · rw [l1, zero_add]
      have : (List.map (fun x => ((r0.strings x).atVoltage r0.regulated).current) (defaultOrder sections)).sum =
          (List.map (fun x => ((r0.strings x).atVoltage r0.regulated).current) r0.order).sum := ((hp.map _).sum_eq).symm
      rw [this]
      congr 1
      exact List.map_congr_left fun x _ => by rw [(l2 x).1]

/-- One solution of the network within a major step. -/
structure ShuntPass (K : Type) where
  v : K
  n : ℕ
  s : Sense K

/-- The regulator after a sequence of solutions, and how many it has rejected. -/
def shuntRun : List (ShuntPass K) → RegShunt K → ℕ × RegShunt K
  | [], r => (0, r)
  | p :: l, r =>
    let c := r.minor.confirm p.s p.v p.n
    ((shuntRun l c.2).1 + (if c.1 = .reject then 1 else 0), (shuntRun l c.2).2)

/-- **C80**: the strings keep their places through any sequence of solutions. -/
theorem c80_run_fresh (l : List (ShuntPass K)) (r : RegShunt K) (hn : r.order.Nodup) (hf : FreshStrings r.order r.vreg r.strings) :
    (shuntRun l r).2.order = r.order ∧ (shuntRun l r).2.vreg = r.vreg ∧
      FreshStrings r.order r.vreg (shuntRun l r).2.strings ∧ SameCurves (shuntRun l r).2.strings r.strings := by
  induction l generalizing r with
  | nil => exact ⟨rfl, rfl, hf, fun _ => ⟨rfl, rfl⟩⟩
  | cons p l ih =>
    obtain ⟨j1, j2, j3, j4⟩ := judge_keeps r.minor p.v p.n hn hf
    obtain ⟨c1, c2, c3, -⟩ := confirm_fields r.minor p.s p.v p.n
    have o : (r.minor.confirm p.s p.v p.n).2.order = r.order := c1.trans j1
    have v : (r.minor.confirm p.s p.v p.n).2.vreg = r.vreg := c2.trans j2
    have f : FreshStrings r.order r.vreg (r.minor.confirm p.s p.v p.n).2.strings := by
      rw [c3]
      exact j3
    obtain ⟨i1, i2, i3, i4⟩ := ih (r.minor.confirm p.s p.v p.n).2 (by rw [o]; exact hn) (by rw [o, v]; exact f)
    unfold shuntRun
    simp only
    rw [o, v] at i3
    refine ⟨i1.trans o, i2.trans v, i3, fun x => ?_⟩
    have k := j4 x
    rw [← c3] at k
    exact ⟨(i4 x).1.trans k.1, (i4 x).2.trans k.2⟩

/-! ## The number of rejections -/

private def shuntRank (reg occurred : Bool) : ℕ :=
  match reg, occurred with
  | true, false => 3
  | false, false => 2
  | true, true => 1
  | false, true => 0

private def Falls (r : RegShunt K) (x : SolRes × RegShunt K) : Prop :=
  x.2.trips = r.trips ∧ x.2.powered = r.powered ∧ x.2.enabled = r.enabled ∧
    shuntRank x.2.reg x.2.occurred + (if x.1 = .reject then 1 else 0) ≤ shuntRank r.reg r.occurred

private theorem judge_falls (r : RegShunt K) (v1 : K) (n : ℕ) : Falls r (r.judge v1 n) := by
  have same : ∀ q : RegShunt K, q.trips = r.trips → q.powered = r.powered → q.enabled = r.enabled → q.reg = r.reg →
      q.occurred = r.occurred → Falls r (.confirm, q) ∧ Falls r (.delay, q) := by
    intro q h1 h2 h3 h4 h5
    constructor <;> exact ⟨h1, h2, h3, by simp only; rw [h4, h5]; simp⟩
  have down : ∀ q : RegShunt K, ∀ x, q.trips = r.trips → q.powered = r.powered → q.enabled = r.enabled → r.reg = true → q.reg = false →
      q.occurred = r.occurred → Falls r (x, q) := by
    intro q x h1 h2 h3 h4 h5 h6
    refine ⟨h1, h2, h3, ?_⟩
    simp only
    rw [h4, h5, h6]
    cases r.occurred <;> cases x <;> simp [shuntRank]
  have up : ∀ q : RegShunt K, q.trips = r.trips → q.powered = r.powered → q.enabled = r.enabled → r.occurred = false → q.reg = true →
      q.occurred = true → Falls r (.reject, q) := by
    intro q h1 h2 h3 h4 h5 h6
    refine ⟨h1, h2, h3, ?_⟩
    simp only
    rw [h4, h5, h6]
    cases r.reg <;> decide
  unfold RegShunt.judge
  by_cases ho : r.operating = true
  · rw [if_pos ho]
    by_cases hb : r.reg = true ∧ v1 > r.vreg
    · simp only [if_pos hb, Bool.false_eq_true, if_false]
      by_cases h0 : n > 0
      · rw [if_pos h0]
        by_cases h1 : r.bulk ≥ r.minPower ∧ r.occurred = false
        · rw [if_pos h1]
          by_cases h2 : n < r.priority
          · rw [if_pos h2]
            exact down _ _ rfl rfl rfl hb.1 rfl rfl
          · rw [if_neg h2]
            exact up _ rfl rfl rfl h1.2 rfl rfl
        · rw [if_neg h1]
          exact down _ _ rfl rfl rfl hb.1 rfl rfl
      · rw [if_neg h0]
        exact down _ _ rfl rfl rfl hb.1 rfl rfl
    · simp only [if_neg hb]
      by_cases h0 : n > 0
      · rw [if_pos h0]
        by_cases hr : r.reg = true
        · rw [if_pos hr]
          by_cases h1 : (r.loadArray (r.demand v1)).inPower < r.demand v1 ∧ (r.loadArray (r.demand v1)).bulk < r.demand v1
          · rw [if_pos h1]
            by_cases h2 : n < (r.loadArray (r.demand v1)).priority
            · rw [if_pos h2]
              exact (same _ rfl rfl rfl rfl rfl).2
            · rw [if_neg h2]
              exact down _ _ rfl rfl rfl hr rfl rfl
          · rw [if_neg h1]
            exact (same _ rfl rfl rfl rfl rfl).1
        · rw [if_neg hr]
          by_cases h1 : r.bulk ≥ r.minPower ∧ r.occurred = false
          · rw [if_pos h1]
            by_cases h2 : n < r.priority
            · rw [if_pos h2]
              exact (same _ rfl rfl rfl rfl rfl).2
            · rw [if_neg h2]
              exact up _ rfl rfl rfl h1.2 rfl rfl
          · rw [if_neg h1]
            exact (same _ rfl rfl rfl rfl rfl).1
      · rw [if_neg h0]
        exact (same _ rfl rfl rfl rfl rfl).1
  · rw [if_neg ho]
    exact (same _ rfl rfl rfl rfl rfl).1

private theorem judge_rank (r : RegShunt K) (v1 : K) (n : ℕ) :
    (r.judge v1 n).2.trips = r.trips ∧ (r.judge v1 n).2.powered = r.powered ∧ (r.judge v1 n).2.enabled = r.enabled ∧
      (r.operating = false → r.judge v1 n = (.confirm, r)) ∧
      (r.operating = true → shuntRank (r.judge v1 n).2.reg (r.judge v1 n).2.occurred + (if (r.judge v1 n).1 = .reject then 1 else 0) ≤
        shuntRank r.reg r.occurred) := by
  obtain ⟨h1, h2, h3, h4⟩ := judge_falls r v1 n
  refine ⟨h1, h2, h3, fun e => ?_, fun _ => h4⟩
  unfold RegShunt.judge
  exact if_neg (by rw [e]; decide)

private def shuntLeft (r : RegShunt K) : ℕ := if r.operating = true then shuntRank r.reg r.occurred + 1 else 0

private theorem confirm_rank (r : RegShunt K) (s : Sense K) (v1 : K) (n : ℕ) :
    shuntLeft (r.confirm s v1 n).2 + (if (r.confirm s v1 n).1 = .reject then 1 else 0) ≤ shuntLeft r := by
  obtain ⟨t1, t2, t3, t4, t5⟩ := judge_rank r v1 n
  have opj : (r.judge v1 n).2.operating = r.operating := by
    unfold RegShunt.operating
    rw [t1, t2, t3]
  have lj : shuntLeft (r.judge v1 n).2 + (if (r.judge v1 n).1 = .reject then 1 else 0) ≤ shuntLeft r := by
    unfold shuntLeft
    rw [opj]
    by_cases ho : r.operating = true
    · rw [if_pos ho, if_pos ho]
      have := t5 ho
      omega
    · rw [if_neg ho, if_neg ho]
      have := t4 (Bool.eq_false_iff.2 ho)
      rw [this]
      simp
  unfold RegShunt.confirm
  generalize r.judge v1 n = j at *
  simp only
  by_cases h1 : n > 0 ∧ j.1 ≠ .reject
  · rw [if_pos h1]
    by_cases h2 : RegShunt.operating { j.2 with flux := j.2.fluxAt v1 } = true
    · rw [if_pos h2]
      have oj : j.2.operating = true := h2
      have hk := checkAll j.2.trips j.1 (s.vin (j.2.strings (j.2.order.headD (0, 0))).term.voltage)
        (s.iin (j.2.strings (j.2.order.headD (0, 0))).term.current) (s.vout v1) (s.iout (j.2.fluxAt v1)) n
      generalize j.2.trips.check j.1 (s.vin (j.2.strings (j.2.order.headD (0, 0))).term.voltage)
        (s.iin (j.2.strings (j.2.order.headD (0, 0))).term.current) (s.vout v1) (s.iout (j.2.fluxAt v1)) n = c at *
      cases hb : c.2.2 with
      | true =>
        obtain ⟨k1, k2, -⟩ := hk.1 hb
        have ht : c.1.isTripped = true := by
          unfold heldAny held at k2
          unfold RegTrips.isTripped
          simp only [Bool.or_eq_true, Bool.and_eq_true] at k2 ⊢
          tauto
        simp only [k1, if_true]
        have : shuntLeft r ≥ 1 := by
          unfold shuntLeft
          rw [← opj, if_pos oj]
          omega
        refine le_trans (le_of_eq ?_) this
        unfold shuntLeft RegShunt.operating
        simp [ht]
      | false =>
        obtain ⟨k1, -, -, -, k5⟩ := hk.2 hb
        have hnr : ¬ c.2.1 = .reject := fun e => h1.2 (k1.1 e)
        simp only [Bool.false_eq_true, if_false]
        rw [if_neg hnr, add_zero]
        refine le_trans ?_ (le_trans (Nat.le_add_right _ _) lj)
        unfold shuntLeft
        rw [if_pos oj]
        split_ifs <;> first | exact le_rfl | exact Nat.zero_le _
    · rw [if_neg h2]
      exact lj
  · rw [if_neg h1]
    exact lj

/-- **C80**: whatever the potentials, the sensors and the counts of converged steps, the regulator rejects at most four solutions of
a major step. -/
theorem c80_rejections (l : List (ShuntPass K)) (r : RegShunt K) : (shuntRun l r).1 ≤ 4 := by
  have key : ∀ (l : List (ShuntPass K)) (r : RegShunt K), (shuntRun l r).1 ≤ shuntLeft r := by
    intro l
    induction l with
    | nil =>
      intro r
      exact Nat.zero_le _
    | cons p l ih =>
      intro r
      have h1 := ih (r.minor.confirm p.s p.v p.n).2
      have h2 := confirm_rank r.minor p.s p.v p.n
      have h3 : shuntLeft r.minor = shuntLeft r := rfl
      unfold shuntRun
      simp only
      omega
  refine (key l r).trans ?_
  unfold shuntLeft
  split_ifs
  · cases r.reg <;> cases r.occurred <;> decide
  · omega

/-! ## What is accepted -/

/-- **C80**: a converged solution that an operating regulator accepts was computed for the state that it is in.  When regulating, the
output is not above the regulated voltage, the power that it takes there meets the strings' or the whole array's
power, and the strings are loaded for it.  When off, there is no flux, all strings are shunted, and either the array has too
little power or the one return in this major step has been used. -/
theorem c80_accepted (r r' : RegShunt K) (s : Sense K) (v1 : K) (n : ℕ) (hn : 0 < n) (ho : r.operating = true)
    (h : r.confirm s v1 n = (.confirm, r')) :
    r'.reg = r.reg ∧ r'.common = !r'.reg ∧ r'.operating = true ∧
      (r.reg = true → v1 ≤ r.vreg ∧ r'.flux = (r.vreg - v1) * r.adm3 ∧ r'.strings = (r.loadArray (r.vreg * r'.flux)).strings ∧
        r'.inPower = (r.loadArray (r.vreg * r'.flux)).inPower ∧ r'.shuntPower = (r.loadArray (r.vreg * r'.flux)).shuntPower ∧
        r'.inG = (r.loadArray (r.vreg * r'.flux)).inG ∧ (r.vreg * r'.flux ≤ r'.inPower ∨ r.vreg * r'.flux ≤ r.bulk)) ∧
      (r.reg = false → r'.flux = 0 ∧ r'.strings = (r.loadArray (-1)).strings ∧ r'.inPower = (r.loadArray (-1)).inPower ∧
        r'.shuntPower = (r.loadArray (-1)).shuntPower ∧ (r.bulk < r.minPower ∨ r.occurred = true)) := by
  obtain ⟨f1, f2, f3, f4, -, -, -, -, f9, f10, f11⟩ := confirm_fields r s v1 n
  obtain ⟨t1, t2, t3, -, -⟩ := judge_rank r v1 n
  have opj : (r.judge v1 n).2.operating = true := by
    unfold RegShunt.operating at ho ⊢
    rw [t1, t2, t3]
    exact ho
  -- the judgement confirmed, the trips were silent
  have key : (r.judge v1 n).1 = .confirm ∧ r'.reg = (r.judge v1 n).2.reg ∧ r'.flux = (r.judge v1 n).2.fluxAt v1 ∧ r'.operating = true ∧
      r'.common = !r'.reg := by
    unfold RegShunt.confirm at h
    generalize r.judge v1 n = j at *
    simp only at h
    by_cases h1 : n > 0 ∧ j.1 ≠ .reject
    · rw [if_pos h1] at h
      have h2 : RegShunt.operating { j.2 with flux := j.2.fluxAt v1 } = true := opj
      rw [if_pos h2] at h
      have hk := checkAll j.2.trips j.1 (s.vin (j.2.strings (j.2.order.headD (0, 0))).term.voltage)
        (s.iin (j.2.strings (j.2.order.headD (0, 0))).term.current) (s.vout v1) (s.iout (j.2.fluxAt v1)) n
      generalize j.2.trips.check j.1 (s.vin (j.2.strings (j.2.order.headD (0, 0))).term.voltage)
        (s.iin (j.2.strings (j.2.order.headD (0, 0))).term.current) (s.vout v1) (s.iout (j.2.fluxAt v1)) n = c at *
      simp only [Prod.mk.injEq] at h
      obtain ⟨e1, e2⟩ := h
      cases hb : c.2.2 with
      | true =>
        rw [(hk.1 hb).1] at e1
        exact absurd e1 (by decide)
      | false =>
        obtain ⟨-, -, -, k4, k5⟩ := hk.2 hb
        rw [hb] at e2
        have hop : r'.operating = true := by
          rw [← e2]
          unfold RegShunt.operating at opj ⊢
          simp only [Bool.and_eq_true, Bool.not_eq_true'] at opj ⊢
          refine ⟨opj.1, ?_⟩
          by_contra hc
          have := k5 (by simpa using hc)
          rw [opj.2] at this
          exact absurd this (by decide)
        refine ⟨k4 e1, by rw [← e2]; rfl, by rw [← e2], hop, ?_⟩
        subst e2
        simp only at hop ⊢
        exact if_pos hop
    · exfalso
      rw [if_neg h1] at h
      simp only [Prod.mk.injEq] at h
      exact h1 ⟨hn, by rw [h.1]; decide⟩
  have e2 : (r.confirm s v1 n).2 = r' := by rw [h]
  rw [e2] at f3 f4 f9 f10 f11
  obtain ⟨k1, k2, k3, k4, k5⟩ := key
  rw [k2, k3, f3, f4, f10, f11]
  refine ⟨?_, by rw [k5, k2], k4, ?_, ?_⟩
  · unfold RegShunt.judge at k1 ⊢
    rw [if_pos ho] at k1 ⊢
    by_cases hb : r.reg = true ∧ v1 > r.vreg
    · simp only [if_pos hb, if_pos hn, Bool.false_eq_true, if_false] at k1
      split_ifs at k1
    · simp only [if_neg hb, if_pos hn] at k1 ⊢
      split_ifs at k1 ⊢ <;> rfl
  · intro hr
    unfold RegShunt.judge at k1 ⊢
    rw [if_pos ho] at k1 ⊢
    by_cases hb : r.reg = true ∧ v1 > r.vreg
    · simp only [if_pos hb, if_pos hn, Bool.false_eq_true, if_false] at k1
      split_ifs at k1
    · simp only [if_neg hb, if_pos hn, if_pos hr] at k1 ⊢
      have hv : v1 ≤ r.vreg := by
        by_contra hc
        exact hb ⟨hr, not_le.1 hc⟩
      have hd : r.demand v1 = r.vreg * ((r.vreg - v1) * r.adm3) := by
        unfold RegShunt.demand
        ring
      by_cases h2 : (r.loadArray (r.demand v1)).inPower < r.demand v1 ∧ (r.loadArray (r.demand v1)).bulk < r.demand v1
      · rw [if_pos h2] at k1
        split_ifs at k1
      · rw [if_neg h2]
        have hfl : RegShunt.fluxAt (r.loadArray (r.demand v1)) v1 = (r.vreg - v1) * r.adm3 := by
          unfold RegShunt.fluxAt
          have : (r.loadArray (r.demand v1)).reg = r.reg := rfl
          rw [this, hr]
          rfl
        simp only
        rw [hfl, ← hd]
        refine ⟨hv, rfl, rfl, rfl, rfl, rfl, ?_⟩
        rw [not_and_or, not_lt, not_lt] at h2
        exact h2
  · intro hr
    unfold RegShunt.judge at k1 ⊢
    rw [if_pos ho] at k1 ⊢
    have hb : ¬ (r.reg = true ∧ v1 > r.vreg) := by
      rw [hr]
      simp
    have hr' : ¬ r.reg = true := by
      rw [hr]
      decide
    simp only [if_neg hb, if_pos hn, if_neg hr'] at k1 ⊢
    by_cases h2 : r.bulk ≥ r.minPower ∧ r.occurred = false
    · rw [if_pos h2] at k1
      split_ifs at k1
    · rw [if_neg h2]
      refine ⟨?_, rfl, rfl, rfl, ?_⟩
      · unfold RegShunt.fluxAt
        have : (r.loadArray (-1)).reg = r.reg := rfl
        simp only [this, hr]
        simp
      · rw [not_and_or, not_le] at h2
        rcases h2 with h2 | h2
        · exact Or.inl h2
        · exact Or.inr (by simpa using h2)

/-- **C80**: when the array's own curve promises no more than all strings have together, an accepted solution of a regulating
regulator takes no more power than the loaded strings have. -/
theorem c80_power (r r' : RegShunt K) (s : Sense K) (v1 : K) (n : ℕ) (hn : 0 < n) (ho : r.operating = true) (hr : r.reg = true)
    (h : r.confirm s v1 n = (.confirm, r')) (nd : r.order.Nodup) (hf : FreshStrings r.order r.vreg r.strings) (hv : 0 < r.vreg)
    (ha : 0 ≤ r.adm3) (hb : r.bulk ≤ powerAt r.strings r.vreg r.order) : r.vreg * r'.flux ≤ r'.inPower := by
  obtain ⟨-, -, -, hc, -⟩ := c80_accepted r r' s v1 n hn ho h
  obtain ⟨h1, h2, -, h4, -, -, h7⟩ := hc hr
  rcases h7 with h7 | h7
  · exact h7
  · have hd : 0 ≤ r.vreg * r'.flux := by
      rw [h2]
      exact mul_nonneg hv.le (mul_nonneg (by linarith) ha)
    obtain ⟨k, hk, -, -, -, i4, -, -, -, i8⟩ := c80_load r (r.vreg * r'.flux) nd hf
    rw [h4, i4]
    rcases hk.lt_or_eq with hk | hk
    · exact (i8 hd).2 hk
    · rw [hk, List.take_length]
      exact h7.trans hb

/-- **C80**: the array's curve of equal strings promises exactly what they have together. -/
theorem c80_equal_strings (p : PvString K) (hp : ProperString p) (r : RegShunt K) (g : K)
    (h0 : dblEps ≤ r.vreg) (h1 : r.vreg ≤ p.voc)
    (hs : ∀ x ∈ r.order, (r.strings x).atVoltage = p.loadAtVoltage)
    (pa : ProperArray (updateArray (List.replicate r.order.length p.curve)))
    (hi : dblEps ≤ r.order.length * p.predict r.vreg)
    (hb : (updateArray (List.replicate r.order.length p.curve)).predictLoad r.vreg = some (r.bulk, g)) :
    r.bulk = powerAt r.strings r.vreg r.order := by
  have hl : 0 < r.order.length := by
    rcases Nat.eq_zero_or_pos r.order.length with e | e
    · rw [e, Nat.cast_zero, zero_mul] at hi
      exact absurd hi (not_le.2 dblEps_pos)
    · exact e
  obtain ⟨e1, e2, e3, e4⟩ := c78_equal_strings p hp r.order.length hl
  have ln := c77_predict_lines p hp r.vreg h0 h1
  have ln' : PvLines (updateArray (List.replicate r.order.length p.curve)).isc (updateArray (List.replicate r.order.length p.curve)).cornerV
      (updateArray (List.replicate r.order.length p.curve)).cornerI (updateArray (List.replicate r.order.length p.curve)).voc r.vreg
      (r.order.length * p.predict r.vreg) := by
    rw [e1, e2, e3, e4]
    refine ⟨fun h => ?_, fun h => ?_⟩
    · have := ln.1 h
      linear_combination (r.order.length : K) * this
    · have := ln.2 h
      linear_combination (r.order.length : K) * this
  have := c78_predict_load _ pa r.vreg _ h0 (by rw [e2]; exact h1) hi ln'
  rw [this] at hb
  simp only [Option.some.injEq, Prod.mk.injEq] at hb
  rw [← hb.1]
  unfold powerAt
  rw [List.map_congr_left (g := fun _ => r.vreg * p.predict r.vreg) fun x hx => by rw [hs x hx]; exact (c77_load_voltage p r.vreg).2.2.1]
  simp
  ring

/-- **C80**: the state at the start of a step: it regulates exactly when it is powered, enabled and not tripped (after the reset that
a command or the loss of power causes), the array has a maximum power and has the minimum power at the regulated voltage;
the one return within the step is used up exactly when it has just come on. -/
theorem c80_initial (a : ArrayCurve K) (r : RegShunt K) :
    ((r.initial a).reg = true ↔ r.powered = true ∧ r.enabled = true ∧ (r.trips.isTripped = false ∨ r.resetCmd = true) ∧
      dblEps ≤ a.mpp.power ∧ r.minPower ≤ r.bulk) ∧
      ((r.initial a).occurred = true ↔ (r.initial a).reg = true ∧ r.reg = false) ∧
      (r.initial a).trips = (if r.resetCmd = true ∨ r.powered = false then r.trips.reset else r.trips) ∧
      (r.initial a).resetCmd = false := by
  have rt : r.trips.reset.isTripped = false := rfl
  unfold RegShunt.initial RegShunt.operating
  cases h1 : r.resetCmd <;> cases h2 : r.powered <;> cases h3 : r.enabled <;> cases h4 : r.trips.isTripped <;>
    simp only [h1, h2, h3, h4, rt, Bool.or_true, Bool.or_false, Bool.not_true, Bool.not_false, Bool.and_true, Bool.and_false, if_true,
      Bool.false_eq_true, if_false, Bool.true_or, Bool.false_or, true_and, false_and, or_true, true_or, or_false, false_or, and_true,
      and_false] <;>
    by_cases c1 : a.mpp.power < dblEps <;> by_cases c2 : r.bulk < r.minPower <;> cases h5 : r.reg <;>
    simp [c1, c2, not_le.2, not_lt.1]

/-- **C80**: the regulated voltage times the flux is the power to the circuit and the loss in the output channel; the waste heat is
that loss and the power of the shunted strings; a regulator that is off puts out nothing. -/
theorem c80_balance (r : RegShunt K) (v1 : K) :
    (r.reg = true → r.vreg * r.flux = (r.flows v1).outPower - (r.flows v1).power ∧
      (r.flows v1).waste = r.shuntPower + r.flux * (r.vreg - v1) ∧ (r.flows v1).outPower = v1 * r.flux) ∧
      (r.reg = false → (r.flows v1).outPower = 0 ∧ (r.flows v1).inPower = 0 ∧ (r.flows v1).waste = r.shuntPower) := by
  unfold RegShunt.flows
  constructor
  · intro h
    simp only [h, if_true]
    refine ⟨by ring, by ring, trivial⟩
  · intro h
    simp [h]

/-! ## What fails -/

/-- **C80** (failure of the rejection on back voltage): the comments in the code promise that a regulating regulator goes off and rejects
the solution when the output is above the regulated voltage.  In a converged solution, when the array has its minimum power
and the one return of the step is not used, it goes off and only delays until its priority, and from then on it is
regulating again when it rejects. -/
theorem c80_back_voltage (r : RegShunt K) (v1 : K) (n : ℕ) (ho : r.operating = true) (hr : r.reg = true) (hv : r.vreg < v1) :
    (n = 0 → r.judge v1 n = (.reject, { r with reg := false })) ∧
      (0 < n → r.minPower ≤ r.bulk → r.occurred = false → n < r.priority → r.judge v1 n = (.delay, { r with reg := false })) ∧
      (0 < n → r.minPower ≤ r.bulk → r.occurred = false → r.priority ≤ n → r.judge v1 n = (.reject, { r with
        reg := true
        occurred := true })) ∧
      (0 < n → (r.bulk < r.minPower ∨ r.occurred = true) → r.judge v1 n = (.reject, { r with reg := false }.loadArray (-1))) := by
  have hb : r.reg = true ∧ v1 > r.vreg := ⟨hr, hv⟩
  unfold RegShunt.judge
  rw [if_pos ho]
  simp only [if_pos hb, Bool.false_eq_true, if_false]
  refine ⟨fun h => ?_, fun h0 h1 h2 h3 => ?_, fun h0 h1 h2 h3 => ?_, fun h0 h1 => ?_⟩
  · rw [if_neg (by omega)]
  · rw [if_pos h0, if_pos ⟨h1, h2⟩, if_pos h3]
  · rw [if_pos h0, if_pos ⟨h1, h2⟩, if_neg (not_lt.2 h3)]
  · rw [if_pos h0, if_neg ?_]
    rintro ⟨h2, h3⟩
    rcases h1 with h1 | h1
    · exact absurd h2 (not_le.2 h1)
    · rw [h3] at h1
      exact absurd h1 (by decide)

/-- **C80** (failure of the waste heat): without power or when not enabled, the strings are not loaded again, so the waste heat stays
what the shunts had when the regulator last operated, whatever the array has now. -/
theorem c80_stale_waste (a : ArrayCurve K) (sections : List ℕ) (r0 r : RegShunt K) (h : r0.step a sections = some r)
    (hp : r0.powered = false ∨ r0.enabled = false) (l : List (ShuntPass K)) (v1 : K) :
    ((shuntRun l r).2.flows v1).waste = r0.shuntPower ∧ ((shuntRun l r).2.flows v1).outPower = 0 := by
  have hs : r.shuntPower = r0.shuntPower ∧ r.reg = false ∧ (r.powered = false ∨ r.enabled = false) := by
    unfold RegShunt.step RegShunt.maxOut at h
    simp only at h
    cases hl : a.predictLoad r0.regulated with
    | none => simp [hl] at h
    | some x =>
      simp only [hl, Option.some.injEq] at h
      rw [← h]
      unfold RegShunt.minor RegShunt.initial RegShunt.operating
      rcases hp with hp | hp
      · simp [hp]
      · cases h1 : r0.resetCmd <;> cases h2 : r0.powered <;> simp [hp]
  have key : ∀ (l : List (ShuntPass K)) (q : RegShunt K), q.reg = false → (q.powered = false ∨ q.enabled = false) →
      (shuntRun l q).2.shuntPower = q.shuntPower ∧ (shuntRun l q).2.reg = false := by
    intro l
    induction l with
    | nil => exact fun q h _ => ⟨rfl, h⟩
    | cons p l ih =>
      intro q h1 h2
      have no : q.minor.operating = false := by
        unfold RegShunt.operating RegShunt.minor
        rcases h2 with h2 | h2 <;> simp [h2]
      have hj : q.minor.judge p.v p.n = (.confirm, q.minor) := (judge_rank q.minor p.v p.n).2.2.2.1 no
      obtain ⟨-, -, -, -, -, -, c7, c8, -, c10, -⟩ := confirm_fields q.minor p.s p.v p.n
      rw [hj] at c7 c8 c10
      have c0 : (q.minor.confirm p.s p.v p.n).2.reg = false := by
        unfold RegShunt.confirm
        rw [hj]
        have no' : ¬ RegShunt.operating { q.minor with flux := q.minor.fluxAt p.v } = true := by
          have : RegShunt.operating { q.minor with flux := q.minor.fluxAt p.v } = q.minor.operating := rfl
          rw [this, no]
          decide
        simp only [if_neg no']
        split_ifs <;> exact h1
      obtain ⟨i1, i2⟩ := ih (q.minor.confirm p.s p.v p.n).2 c0 (by rw [c7, c8]; exact h2)
      unfold shuntRun
      simp only
      exact ⟨i1.trans c10, i2⟩
  obtain ⟨k1, k2⟩ := key l r hs.2.1 hs.2.2
  have := (c80_balance (shuntRun l r).2 v1).2 k2
  exact ⟨this.2.2.trans (k1.trans hs.1), this.1⟩

/-- **C80**: a step takes the regulated voltage from the setpoint and the malfunction's bias.  The output's row of the network is then the flow that the
regulator reports while it regulates; otherwise there is no source and the output lets through no more than the reciprocal of the conductance limit. -/
theorem c80_output (a : ArrayCurve K) (sections : List ℕ) (r0 r : RegShunt K) (h : r0.step a sections = some r) :
    r.vreg = max (r0.setpoint + r0.bias.getD 0) dblEps ∧ (r.reg = true → r.adm3 = r0.outG ∧ ∀ v, r.src1 - r.adm3 * v = r.fluxAt v) ∧
      (r.reg = false → ∀ v, r.src1 - r.adm3 * v = -(v / r0.limitG) ∧ r.fluxAt v = 0) := by
  unfold RegShunt.step RegShunt.maxOut at h
  simp only at h
  cases hl : a.predictLoad r0.regulated with
  | none => simp [hl] at h
  | some x =>
    simp only [hl] at h
    have keeps : ∀ q : RegShunt K, (q.initial a).minor.vreg = q.vreg ∧ (q.initial a).outG = q.outG ∧ (q.initial a).limitG = q.limitG ∧
        (q.initial a).vreg = q.vreg := by
      intro q
      unfold RegShunt.initial RegShunt.minor
      simp only
      split <;> split <;> exact ⟨rfl, rfl, rfl, rfl⟩
    cases h
    obtain ⟨k1, k2, k3, k4⟩ := keeps { r0 with
      vreg := r0.regulated
      bulk := x.1
      inG := x.2
      strings := (loadAll r0.regulated (defaultOrder sections) r0.strings).1
      maxCurrent := (loadAll r0.regulated (defaultOrder sections) r0.strings).2 }
    refine ⟨k1.trans ?_, ?_, ?_⟩
    · show r0.regulated = _
      unfold RegShunt.regulated
      cases r0.bias <;> simp
    · intro hr
      simp only [RegShunt.minor] at hr ⊢
      simp only [RegShunt.fluxAt, hr, if_true, k2, k4]
      refine ⟨trivial, fun v => by ring⟩
    · intro hr v
      simp only [RegShunt.minor] at hr ⊢
      simp only [RegShunt.fluxAt, hr, k3, Bool.false_eq_true, if_false]
      refine ⟨by ring, trivial⟩

end Field

/-! ## Cases -/

private def qTrip : Sw.Trip ℚ := ⟨false, false, 0, 1, false⟩

private def qString (voc vm : ℚ) : PvString ℚ where
  active := 1
  shuntDrop := 0
  seriesDrop := 0
  source := 0
  rsh := 1
  rs := 1
  isc := 10
  voc := voc
  mpp := ⟨9 / vm, 9, 9 * vm, vm⟩

/-- A regulator at 70 V with two strings, the second of which may be shaded. -/
private def qReg (voc2 vm2 : ℚ) (shuntPower : ℚ) (powered : Bool) : RegShunt ℚ where
  outG := 100
  shuntG := 1000
  limitG := 1000000
  order := [(0, 0), (0, 1)]
  priority := 3
  setpoint := 70
  bias := none
  minPower := 100
  powered := powered
  enabled := true
  resetCmd := false
  trips := ⟨qTrip, qTrip, qTrip, qTrip, qTrip⟩
  strings := fun x => if x = (0, 0) then (qString 120 100).forReg Load.clear false else (qString voc2 vm2).forReg Load.clear false
  common := true
  reg := true
  occurred := false
  vreg := 0
  inG := 0
  inPower := 0
  shuntPower := shuntPower
  bulk := 0
  maxCurrent := 0
  adm0 := 0
  adm3 := 0
  src1 := 0
  flux := 0
  power := 0
  outPower := 0
  waste := 0

private def qArray (voc2 vm2 : ℚ) : ArrayCurve ℚ := updateArray [(qString 120 100).curve, (qString voc2 vm2).curve]

private def qSense : Sense ℚ := ⟨id, id, id, id⟩

/-- After a step and one converged solution: the result, regulating, the taken power, the input power, the shunted power, the bulk
power. -/
private def qRun (voc2 vm2 : ℚ) (v1 : ℚ) (n : ℕ) : Option (SolRes × Bool × ℚ × ℚ × ℚ × ℚ) :=
  match (qReg voc2 vm2 0 true).step (qArray voc2 vm2) [2] with
  | none => none
  | some r =>
    let c := r.confirm qSense v1 n
    some (c.1, c.2.reg, c.2.vreg * c.2.flux, c.2.inPower, c.2.shuntPower, c.2.bulk)

/-- **C80** (failure of the limit on the power): with one of two strings shaded, the curve that the array is given lies above the sum
of the strings' curves at 70 V (861 W against 651 W).  A load of 700 W is accepted, though both strings together have only
651 W and nothing is shunted. -/
theorem c80_overdraw : qRun 60 50 (699 / 10) 5 = some (.confirm, true, 700, 651, 0, 861) := by decide +kernel

/-- Equal strings: a load of 700 W takes both strings, one of 630 W shunts the second, one of 1400 W is delayed and then rejected. -/
example : qRun 120 100 (699 / 10) 5 = some (.confirm, true, 700, 1302, 0, 1302) := by decide +kernel

example : (qRun 120 100 (6991 / 100) 5).map (fun x => (x.1, x.2.1, x.2.2.1, x.2.2.2.1, decide (0 < x.2.2.2.2.1))) =
    some (.confirm, true, 630, 651, true) := by decide +kernel

example : (qRun 120 100 (698 / 10) 2).map (fun x => (x.1, x.2.1)) = some (.delay, true) ∧
    (qRun 120 100 (698 / 10) 3).map (fun x => (x.1, x.2.1)) = some (.reject, false) ∧
    (qRun 120 100 71 0).map (fun x => (x.1, x.2.1)) = some (.reject, false) ∧
    (qRun 120 100 71 2).map (fun x => (x.1, x.2.1)) = some (.delay, false) ∧
    (qRun 120 100 71 3).map (fun x => (x.1, x.2.1)) = some (.reject, true) := by decide +kernel

/-- Without power the shunts' old 500 W are still the waste heat. -/
example : ((qReg 120 100 500 false).step (qArray 120 100) [2]).map (fun r => ((shuntRun [⟨60, 5, qSense⟩] r).2.flows 60).waste) =
    some 500 := by decide +kernel

example : ProperString (qString 120 100) ∧ ProperArray (qArray 120 100) ∧ orderValid [2] (qReg 120 100 0 true).order = true := by
  refine ⟨⟨?_, ?_, ?_, ?_, ?_, ?_⟩, ⟨?_, ?_, ?_, ?_⟩, ?_⟩ <;> decide +kernel

end Gunns.Props
