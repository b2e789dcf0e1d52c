import Mathlib.Tactic.Linarith
import Mathlib.Tactic.FieldSimp
import Mathlib.Tactic.Ring
import Verif.Elect.PvString

/-!
# C77: strings of solar cells

A string works on the two lines through its short circuit current, its maximum power point and its open circuit voltage, and
the loads put on it are points of those lines.  The specification: `PvLines`, the two lines; `ProperString`, a string whose
three points are in order.
-/

namespace Gunns.Props

open Gunns Gunns.Pv
open Gunns.Interp (limitRange)

/-- The current on the line from `(0, isc)` to `(vm, im)`, and on the line from there to `(voc, 0)`. -/
def PvLines {K : Type} [Field K] [LinearOrder K] (isc vm im voc v i : K) : Prop :=
  (v ≤ vm → i * vm = isc * (vm - v) + im * v) ∧ (vm ≤ v → i * (voc - vm) = im * (voc - v))

/-- The points of the curve of a string are in order. -/
structure ProperString {K : Type} [Field K] [LinearOrder K] (s : PvString K) : Prop where
  v0 : dblEps < s.mpp.voltage
  v1 : s.mpp.voltage < s.voc
  i0 : 0 < s.mpp.current
  i1 : s.mpp.current < s.isc
  p : s.mpp.power = s.mpp.voltage * s.mpp.current
  g : s.mpp.conductance * s.mpp.voltage = s.mpp.current

section Field

variable {K : Type} [Field K] [LinearOrder K] [IsStrictOrderedRing K]

/-! ## Cells -/

private theorem limit01 (x : K) : 0 ≤ limitRange 0 x 1 ∧ limitRange 0 x 1 ≤ 1 := by
  unfold limitRange
  exact ⟨le_max_right _ _, max_le (min_le_right _ _) zero_le_one⟩

omit [IsStrictOrderedRing K] in
private theorem limit01_id {x : K} (h0 : 0 ≤ x) (h1 : x ≤ 1) : limitRange 0 x 1 = x := by
  unfold limitRange
  rw [min_eq_left h1, max_eq_left h0]

/-- **C77**: the active cells are those of the groups that are exposed as a whole. -/
theorem c77_active_cells [FloorRing K] (c : StringConfig K) (i : StringInput K) (groups : ℕ) (hc : 0 < c.interval)
    (hg : c.numCells = groups * c.interval) (h0 : 0 ≤ i.exposed) (h1 : i.exposed ≤ 1) (hm : i.groups = none) :
    activeCells c i = ⌊(groups : K) * i.exposed⌋ * c.interval := by
  have hq : c.numCells / c.interval = groups := by rw [hg, Nat.mul_div_cancel _ hc]
  have e : bypassedGroups c i = groups - ⌊(groups : K) * i.exposed⌋ := by
    unfold bypassedGroups
    simp only [hm, hq, limit01_id h0 h1]
    have : ((groups : ℤ) : K) * (1 - i.exposed) = ((groups : ℤ) : K) + -((groups : K) * i.exposed) := by
      push_cast
      ring
    rw [this, Int.ceil_intCast_add, Int.ceil_neg]
    ring
  unfold activeCells
  rw [e, hg]
  push_cast
  ring

/-- **C77**: whatever the exposure and the malfunction, a string has no fewer than no active cells and no more than its
cells, and the malfunction takes at least its groups. -/
theorem c77_active_range [FloorRing K] (c : StringConfig K) (i : StringInput K) (groups : ℕ) (hc : 0 < c.interval)
    (hg : c.numCells = groups * c.interval) :
    0 ≤ activeCells c i ∧ activeCells c i ≤ c.numCells ∧
      (∀ m, i.groups = some m → m ≤ groups → activeCells c i ≤ (groups - m) * c.interval) := by
  have hq : c.numCells / c.interval = groups := by rw [hg, Nat.mul_div_cancel _ hc]
  have l := limit01 i.exposed
  have a0 : (0 : ℤ) ≤ ⌈((groups : ℤ) : K) * (1 - limitRange 0 i.exposed 1)⌉ := by
    apply Int.ceil_nonneg
    apply mul_nonneg
    · push_cast
      exact Nat.cast_nonneg _
    · linarith [l.2]
  have a1 : ⌈((groups : ℤ) : K) * (1 - limitRange 0 i.exposed 1)⌉ ≤ (groups : ℤ) := by
    rw [Int.ceil_le]
    have : (0 : K) ≤ ((groups : ℤ) : K) := by
      push_cast
      exact Nat.cast_nonneg _
    nlinarith [l.1]
  have b : 0 ≤ bypassedGroups c i ∧ bypassedGroups c i ≤ groups ∧
      (∀ m, i.groups = some m → m ≤ groups → m ≤ bypassedGroups c i) := by
    unfold bypassedGroups
    simp only [hq]
    cases hm : i.groups with
    | none => exact ⟨a0, a1, fun m h => by simp at h⟩
    | some m =>
      refine ⟨a0.trans (le_max_left _ _), max_le a1 (max_le (min_le_right _ _) (Int.natCast_nonneg _)), ?_⟩
      intro m' h hle
      simp only [Option.some.injEq] at h
      subst h
      exact le_max_of_le_right (le_max_of_le_left (le_min le_rfl hle))
  have hI : (0 : ℤ) < c.interval := by exact_mod_cast hc
  have hN : (c.numCells : ℤ) = groups * c.interval := by exact_mod_cast hg
  unfold activeCells
  refine ⟨?_, ?_, ?_⟩
  · rw [hN]
    nlinarith [b.2.1]
  · nlinarith [b.1]
  · intro m hm hle
    rw [hN]
    nlinarith [b.2.2 m hm hle]

/-! ## The maximum power point -/

private theorem mpp_eq (c : StringConfig K) (n : ℤ) (sh sd il rsh rs : K) (hrs : rs = n * c.series)
    (hi : 0 < il - sh / rsh) (hv : dblEps ≤ sh - (il - sh / rsh) * rs - sd) :
    (stringMpp c n sh sd il rsh rs).voltage = sh - (il - sh / rsh) * rs - sd ∧
      (stringMpp c n sh sd il rsh rs).current = il - sh / rsh ∧
      (stringMpp c n sh sd il rsh rs).power = (sh - (il - sh / rsh) * rs - sd) * (il - sh / rsh) ∧
      (stringMpp c n sh sd il rsh rs).conductance * (sh - (il - sh / rsh) * rs - sd) = il - sh / rsh := by
  have hv0 : 0 < sh - (il - sh / rsh) * rs - sd := lt_of_lt_of_le dblEps_pos hv
  have e : sh * il - sh * (sh / rsh) - (il - sh / rsh) * sd - (il - sh / rsh) * (il - sh / rsh) * n * c.series =
      (sh - (il - sh / rsh) * rs - sd) * (il - sh / rsh) := by
    rw [hrs]
    ring
  have hp := mul_pos hv0 hi
  unfold stringMpp
  simp only [e, max_eq_right hp.le, if_pos (show (sh - (il - sh / rsh) * rs - sd) * (il - sh / rsh) > 0 from hp),
    max_eq_right hv]
  refine ⟨trivial, ?_, trivial, ?_⟩
  · rw [mul_div_cancel_left₀ _ hv0.ne']
  · rw [mul_div_cancel_left₀ _ hv0.ne', div_mul_cancel₀ _ hv0.ne']

/-- **C77**: the maximum power point solves the circuit of the string — the source current is what leaves through the shunt
and through the terminals, and the voltage of the shunt is what is lost in the series resistance, in the diodes and left at the
terminals — and with it the three points of the curve are in order. -/
theorem c77_update_proper [FloorRing K] (c : StringConfig K) (i : StringInput K) (n : ℤ) (hn : activeCells c i = n) (h0 : 0 < n)
    (hser : 1 / idealDiode ≤ n * c.series) (s : PvString K) (hs : updateString c i = s)
    (hi : s.shuntDrop / s.rsh < s.source) (hsh : 0 ≤ s.shuntDrop)
    (hv : dblEps < s.shuntDrop - (s.source - s.shuntDrop / s.rsh) * s.rs - s.seriesDrop) :
    ProperString s ∧ s.source = s.mpp.current + s.shuntDrop / s.rsh ∧
      s.shuntDrop = s.mpp.voltage + s.mpp.current * s.rs + s.seriesDrop := by
  have hD : (0 : K) < 1 / idealDiode := by
    unfold idealDiode
    norm_num
  subst hs
  unfold updateString at hi hsh hv ⊢
  simp only [hn, if_pos h0] at hi hsh hv ⊢
  generalize n * c.voc * max (1 + (i.temp - c.refTemp) * c.voltCoeff) 0 = sh at hi hsh hv ⊢
  generalize c.blockingDrop + bypassedGroups c i * c.bypassDrop = sd at hi hsh hv ⊢
  generalize (if sh > dblEps then _ else _ : K) = il at hi hsh hv ⊢
  obtain ⟨rsh, hrsh⟩ : ∃ r, r = max (1 / idealDiode) c.shunt := ⟨_, rfl⟩
  obtain ⟨rs, hrs⟩ : ∃ r, r = max (1 / idealDiode) (n * c.series) := ⟨_, rfl⟩
  have hrs' : rs = n * c.series := by rw [hrs, max_eq_right hser]
  have rshp : 0 < rsh := by
    rw [hrsh]
    exact lt_of_lt_of_le hD (le_max_left _ _)
  have rsp : 0 < rs := by
    rw [hrs]
    exact lt_of_lt_of_le hD (le_max_left _ _)
  rw [← hrsh] at hi hv ⊢
  rw [← hrs] at hv ⊢
  have his : 0 < il - sh / rsh := by linarith
  obtain ⟨eV, eI, eP, eG⟩ := mpp_eq c n sh sd il rsh rs hrs' his hv.le
  have hv0 : 0 < sh - (il - sh / rsh) * rs - sd := lt_trans dblEps_pos hv
  have ilp : 0 < il := lt_of_le_of_lt (div_nonneg hsh rshp.le) hi
  refine ⟨⟨?_, ?_, ?_, ?_, ?_, ?_⟩, ?_, ?_⟩
  · simp only [eV]
    exact hv
  · simp only [eV]
    have : 0 < (il - sh / rsh) * rs := mul_pos his rsp
    have : 0 < il * rsh / idealDiode := by
      rw [div_eq_mul_one_div]
      exact mul_pos (mul_pos ilp rshp) hD
    linarith
  · simp only [eI]
    exact his
  · simp only [eI]
    refine lt_of_lt_of_le ?_ (le_max_right _ _)
    rw [lt_div_iff₀ (by linarith)]
    have e : sh / rsh * rsh = sh := div_mul_cancel₀ _ rshp.ne'
    nlinarith
  · simp only [eV, eI, eP]
  · simp only [eV, eI, eG]
  · simp only [eI]
    ring
  · simp only [eV, eI]
    ring

/-- **C77**: what the cells make of the light.  With the shade counted in the flux and in the active cells, a string whose
exposure is a whole number of groups makes the square of the exposed fraction of the power of the string in full light. -/
theorem c77_shade_squared [FloorRing K] (c : StringConfig K) (magnitude exposed temp : K) (groups k : ℕ) (hc : 0 < c.interval)
    (hg : c.numCells = groups * c.interval) (hk : k ≤ groups) (hgr : 0 < groups) (he : exposed = k / groups)
    (hsh : dblEps < (updateString c ⟨magnitude * exposed, exposed, temp, none, none⟩).shuntDrop)
    (hsh1 : dblEps < (updateString c ⟨magnitude, 1, temp, none, none⟩).shuntDrop) :
    (updateString c ⟨magnitude * exposed, exposed, temp, none, none⟩).source *
        (updateString c ⟨magnitude * exposed, exposed, temp, none, none⟩).shuntDrop =
      exposed ^ 2 * ((updateString c ⟨magnitude, 1, temp, none, none⟩).source *
        (updateString c ⟨magnitude, 1, temp, none, none⟩).shuntDrop) := by
  have gp : (0 : K) < groups := by exact_mod_cast hgr
  have e1 : (groups : K) * exposed = k := by
    rw [he]
    field_simp
  have a1 := c77_active_cells c ⟨magnitude * exposed, exposed, temp, none, none⟩ groups hc hg
    (by simp only [he]; positivity) (by simp only [he]; rw [div_le_one gp]; exact_mod_cast hk) rfl
  have a2 := c77_active_cells c ⟨magnitude, 1, temp, none, none⟩ groups hc hg zero_le_one le_rfl rfl
  simp only [e1, Int.floor_natCast] at a1
  simp only [mul_one, Int.floor_natCast] at a2
  have src : ∀ i : StringInput K, i.degrade = none → dblEps < (updateString c i).shuntDrop →
      (updateString c i).source * (updateString c i).shuntDrop =
        i.flux * activeCells c i * c.area * (c.efficiency * max (1 + (i.temp - c.refTemp) * c.currCoeff) 0) := by
    intro i hd h
    unfold updateString at h ⊢
    simp only [hd, apply_ite PvString.shuntDrop, apply_ite PvString.source, ite_self] at h ⊢
    rw [if_pos h, div_mul_cancel₀ _ (ne_of_gt (lt_trans dblEps_pos h))]
  rw [src _ rfl hsh, src _ rfl hsh1, a1, a2]
  have : ((k : ℤ) : K) = groups * exposed := by
    rw [e1]
    push_cast
    rfl
  push_cast at this ⊢
  rw [this]
  ring

omit [IsStrictOrderedRing K] in
/-- **C77**: degradation takes its part off the source, all of it from one on and none below zero; nothing else of the circuit changes. -/
theorem c77_degrade [FloorRing K] (c : StringConfig K) (i : StringInput K) (d : K) (hd : i.degrade = some d) :
    (updateString c i).source = (updateString c { i with degrade := none }).source * max 0 (min 1 (1 - d)) ∧
      (updateString c i).shuntDrop = (updateString c { i with degrade := none }).shuntDrop ∧
      (updateString c i).active = (updateString c { i with degrade := none }).active := by
  have hl : limitRange 0 (1 - d) 1 = max 0 (min 1 (1 - d)) := by unfold limitRange; rw [max_comm, min_comm]
  have ha : activeCells c { i with degrade := none } = activeCells c i := rfl
  refine ⟨?_, ?_, ?_⟩ <;> unfold updateString <;>
    simp only [hd, ha, hl, apply_ite PvString.shuntDrop, apply_ite PvString.source, apply_ite PvString.active, ite_self]
  split
  · ring
  · ring

/-! ## The curve -/

/-- **C77**: the current that a string predicts for a voltage is that of the two lines. -/
theorem c77_predict_lines (s : PvString K) (h : ProperString s) (v : K) (h0 : dblEps ≤ v) (h1 : v ≤ s.voc) :
    PvLines s.isc s.mpp.voltage s.mpp.current s.voc v (s.predict v) := by
  have vm : 0 < s.mpp.voltage := lt_trans dblEps_pos h.v0
  have hd : 0 < s.voc - s.mpp.voltage := by linarith [h.v1]
  unfold PvString.predict
  rw [if_neg (not_not.2 ⟨h0, h1⟩)]
  constructor
  · intro hle
    rw [if_pos hle, sub_mul, div_mul_cancel₀ _ vm.ne']
    ring
  · intro hge
    by_cases hle : v ≤ s.mpp.voltage
    · have : v = s.mpp.voltage := le_antisymm hle hge
      subst this
      rw [if_pos hle, mul_div_cancel_right₀ _ vm.ne']
      ring
    · rw [if_neg hle, div_mul_cancel₀ _ hd.ne']

omit [IsStrictOrderedRing K] in
/-- **C77**: out of the range of the curve there is no current. -/
theorem c77_predict_out (s : PvString K) (v : K) (h : v < dblEps ∨ s.voc < v) : s.predict v = 0 := by
  unfold PvString.predict
  rw [if_pos]
  rintro ⟨h0, h1⟩
  rcases h with h | h
  · exact absurd h0 (not_le.2 h)
  · exact absurd h1 (not_le.2 h)

private theorem lines_anti {isc vm im voc v w i j : K} (hv : 0 < vm) (hd : vm < voc) (h0 : 0 < im) (h1 : im < isc)
    (hi : PvLines isc vm im voc v i) (hj : PvLines isc vm im voc w j) (hlt : v < w) : j < i := by
  have hdd : 0 < voc - vm := by linarith
  have short : ∀ x y a b : K, a * vm = isc * (vm - x) + im * x → b * vm = isc * (vm - y) + im * y → x < y → b < a := by
    intro x y a b ha hb hxy
    have : b * vm < a * vm := by
      rw [ha, hb]
      nlinarith [mul_pos (sub_pos.2 h1) (sub_pos.2 hxy)]
    exact lt_of_mul_lt_mul_right this hv.le
  have open' : ∀ x y a b : K, a * (voc - vm) = im * (voc - x) → b * (voc - vm) = im * (voc - y) → x < y → b < a := by
    intro x y a b ha hb hxy
    have : b * (voc - vm) < a * (voc - vm) := by
      rw [ha, hb]
      nlinarith [mul_pos h0 (sub_pos.2 hxy)]
    exact lt_of_mul_lt_mul_right this hdd.le
  rcases le_total w vm with hw | hw
  · exact short v w i j (hi.1 (hlt.le.trans hw)) (hj.1 hw) hlt
  · rcases le_total vm v with hv' | hv'
    · exact open' v w i j (hi.2 hv') (hj.2 hw) hlt
    · have a : j ≤ im := by
        rcases eq_or_lt_of_le hw with e | e
        · have := hj.2 hw
          rw [← e] at this
          exact (mul_right_cancel₀ hdd.ne' this).le
        · exact (open' vm w im j rfl (hj.2 hw) e).le
      have b : im ≤ i := by
        rcases eq_or_lt_of_le hv' with e | e
        · have := hi.1 hv'
          rw [e] at this
          have : i * vm = im * vm := by linarith
          exact (mul_right_cancel₀ hv.ne' this).symm.le
        · exact (short v vm i im (hi.1 hv') (by ring) e).le
      rcases eq_or_lt_of_le hw with e | e
      · have e2 : v < vm := by rw [e]; exact hlt
        have := short v vm i im (hi.1 hv') (by ring) e2
        linarith
      · have := open' vm w im j rfl (hj.2 hw) e
        linarith

/-- **C77**: more voltage, less current. -/
theorem c77_predict_decreasing (s : PvString K) (h : ProperString s) (v w : K) (h0 : dblEps ≤ v) (h1 : w ≤ s.voc) (hlt : v < w) :
    s.predict w < s.predict v :=
  lines_anti (lt_trans dblEps_pos h.v0) h.v1 h.i0 h.i1 (c77_predict_lines s h v h0 (hlt.le.trans h1))
    (c77_predict_lines s h w (h0.trans hlt.le) h1) hlt

/-- **C77**: the current stays between none and the short circuit current. -/
theorem c77_predict_range (s : PvString K) (h : ProperString s) (v : K) : 0 ≤ s.predict v ∧ s.predict v < s.isc := by
  by_cases hr : dblEps ≤ v ∧ v ≤ s.voc
  · have l := c77_predict_lines s h v hr.1 hr.2
    have vm : 0 < s.mpp.voltage := lt_trans dblEps_pos h.v0
    have hv : 0 < v := lt_of_lt_of_le dblEps_pos hr.1
    have hd : 0 < s.voc - s.mpp.voltage := by linarith [h.v1]
    constructor
    · rcases le_total v s.mpp.voltage with c | c
      · have := l.1 c
        have : 0 ≤ s.predict v * s.mpp.voltage := by
          rw [this]
          have := mul_nonneg (h.i0.trans h.i1).le (sub_nonneg.2 c)
          have := mul_nonneg h.i0.le hv.le
          linarith
        exact nonneg_of_mul_nonneg_left this vm
      · have := l.2 c
        have : 0 ≤ s.predict v * (s.voc - s.mpp.voltage) := by
          rw [this]
          exact mul_nonneg h.i0.le (sub_nonneg.2 hr.2)
        exact nonneg_of_mul_nonneg_left this hd
    · have l0 : PvLines s.isc s.mpp.voltage s.mpp.current s.voc 0 s.isc :=
        ⟨fun _ => by ring, fun c => absurd c (not_le.2 vm)⟩
      exact lines_anti vm h.v1 h.i0 h.i1 l0 l hv
  · have e : s.predict v = 0 := by
      unfold PvString.predict
      rw [if_pos hr]
    rw [e]
    exact ⟨le_rfl, h.i0.trans h.i1⟩

omit [IsStrictOrderedRing K] in
/-- **C77**: a string put at a voltage has the current that it predicts there, and power and conductance to match. -/
theorem c77_load_voltage (s : PvString K) (v : K) :
    (s.loadAtVoltage v).voltage = v ∧ (s.loadAtVoltage v).current = s.predict v ∧
      (s.loadAtVoltage v).power = v * s.predict v ∧ (v ≠ 0 → (s.loadAtVoltage v).conductance * v = s.predict v) := by
  unfold PvString.loadAtVoltage PvString.predict
  by_cases h : ¬ (dblEps ≤ v ∧ v ≤ s.voc)
  · simp only [if_pos h]
    refine ⟨trivial, trivial, ?_, ?_⟩
    · rw [mul_zero]
    · intro _
      rw [zero_mul]
  · by_cases h1 : v ≤ s.mpp.voltage
    · simp only [if_neg h, if_pos h1]
      exact ⟨trivial, trivial, trivial, fun hv => div_mul_cancel₀ _ hv⟩
    · simp only [if_neg h, if_neg h1]
      exact ⟨trivial, trivial, trivial, fun hv => div_mul_cancel₀ _ hv⟩

/-- **C77**: the point that is called the maximum power point is one exactly when its current is at least half of the short
circuit current and its voltage at least half of the open circuit voltage. -/
theorem c77_maximum_power (s : PvString K) (h : ProperString s) :
    (∀ v, v * s.predict v ≤ s.mpp.power) ↔ s.isc ≤ 2 * s.mpp.current ∧ s.voc ≤ 2 * s.mpp.voltage := by
  have vm : 0 < s.mpp.voltage := lt_trans dblEps_pos h.v0
  have hd : 0 < s.voc - s.mpp.voltage := by linarith [h.v1]
  have im := h.i0
  have ii := h.i1
  constructor
  · intro H
    constructor
    · by_contra c
      push Not at c
      -- between the top of the parabola and the corner
      obtain ⟨v, hv0, hv1, hv2⟩ : ∃ v, dblEps ≤ v ∧ v < s.mpp.voltage ∧ s.isc * s.mpp.voltage ≤ 2 * (s.isc - s.mpp.current) * v := by
        refine ⟨max dblEps (s.isc * s.mpp.voltage / (2 * (s.isc - s.mpp.current))), le_max_left _ _, max_lt h.v0 ?_, ?_⟩
        · rw [div_lt_iff₀ (by linarith)]
          nlinarith
        · have := le_max_right dblEps (s.isc * s.mpp.voltage / (2 * (s.isc - s.mpp.current)))
          rw [div_le_iff₀ (by linarith)] at this
          linarith
      have l := (c77_predict_lines s h v hv0 (by linarith [h.v1])).1 hv1.le
      have := H v
      rw [h.p] at this
      have k : v * (s.predict v * s.mpp.voltage) ≤ s.mpp.voltage * s.mpp.current * s.mpp.voltage := by
        calc v * (s.predict v * s.mpp.voltage) = v * s.predict v * s.mpp.voltage := by ring
          _ ≤ _ := mul_le_mul_of_nonneg_right this vm.le
      rw [l] at k
      have h1 : 0 < s.mpp.voltage - v := by linarith
      have h2 : 0 < (s.isc - s.mpp.current) * v - s.mpp.current * s.mpp.voltage := by
        nlinarith
      have := mul_pos h1 h2
      nlinarith
    · by_contra c
      push Not at c
      obtain ⟨v, hv0, hv1⟩ : ∃ v, s.mpp.voltage < v ∧ 2 * v ≤ s.voc := ⟨s.voc / 2, by linarith, by linarith⟩
      have l := (c77_predict_lines s h v (by linarith [h.v0]) (by linarith)).2 hv0.le
      have := H v
      rw [h.p] at this
      have k : v * (s.predict v * (s.voc - s.mpp.voltage)) ≤ s.mpp.voltage * s.mpp.current * (s.voc - s.mpp.voltage) := by
        calc v * (s.predict v * (s.voc - s.mpp.voltage)) = v * s.predict v * (s.voc - s.mpp.voltage) := by ring
          _ ≤ _ := mul_le_mul_of_nonneg_right this hd.le
      rw [l] at k
      have h1 : 0 < s.voc - v - s.mpp.voltage := by linarith
      have := mul_pos (mul_pos im (sub_pos.2 hv0)) h1
      nlinarith
  · rintro ⟨H1, H2⟩ v
    rw [h.p]
    by_cases hr : dblEps ≤ v ∧ v ≤ s.voc
    · have l := c77_predict_lines s h v hr.1 hr.2
      have hv : 0 < v := lt_of_lt_of_le dblEps_pos hr.1
      rcases le_total v s.mpp.voltage with c | c
      · have e := l.1 c
        have : v * s.predict v * s.mpp.voltage ≤ s.mpp.voltage * s.mpp.current * s.mpp.voltage := by
          have : v * s.predict v * s.mpp.voltage = v * (s.predict v * s.mpp.voltage) := by ring
          rw [this, e]
          have h1 : 0 ≤ s.mpp.voltage - v := by linarith
          have h2 : 0 ≤ s.mpp.current * s.mpp.voltage - (s.isc - s.mpp.current) * v := by
            nlinarith
          have := mul_nonneg h1 h2
          nlinarith
        exact le_of_mul_le_mul_right this vm
      · have e := l.2 c
        have : v * s.predict v * (s.voc - s.mpp.voltage) ≤ s.mpp.voltage * s.mpp.current * (s.voc - s.mpp.voltage) := by
          have : v * s.predict v * (s.voc - s.mpp.voltage) = v * (s.predict v * (s.voc - s.mpp.voltage)) := by ring
          rw [this, e]
          have h1 : 0 ≤ s.mpp.voltage + v - s.voc := by linarith
          have := mul_nonneg (mul_nonneg im.le (sub_nonneg.2 c)) h1
          nlinarith
        exact le_of_mul_le_mul_right this hd
    · unfold PvString.predict
      rw [if_pos hr, mul_zero]
      exact (mul_pos vm im).le

/-- **C77**: a string put on a conductance is where its curve meets the conductance. -/
theorem c77_load_conductance (s : PvString K) (h : ProperString s) (g : K) (hg : dblEps ≤ g) (hi : dblEps ≤ s.isc) :
    ∃ l, s.loadAtConductance g = some l ∧ l.conductance = g ∧ l.current = g * l.voltage ∧ l.power = l.current * l.voltage ∧
      0 < l.voltage ∧ l.voltage < s.voc ∧ PvLines s.isc s.mpp.voltage s.mpp.current s.voc l.voltage l.current := by
  have vm : 0 < s.mpp.voltage := lt_trans dblEps_pos h.v0
  have hd : 0 < s.voc - s.mpp.voltage := by linarith [h.v1]
  have im := h.i0
  have ii := h.i1
  have gp : 0 < g := lt_of_lt_of_le dblEps_pos hg
  have vp : 0 < s.voc := vm.trans h.v1
  have eg : s.mpp.conductance = s.mpp.current / s.mpp.voltage := by rw [eq_div_iff vm.ne', h.g]
  unfold PvString.loadAtConductance
  rw [if_neg (not_or.2 ⟨not_lt.2 hg, not_lt.2 hi⟩)]
  by_cases hc : g ≤ s.mpp.conductance
  · have hgi : g * s.mpp.voltage ≤ s.mpp.current := by
      rw [eg, le_div_iff₀ vm] at hc
      exact hc
    have den : 1 - g * (s.mpp.voltage - s.voc) / s.mpp.current = (s.mpp.current + g * (s.voc - s.mpp.voltage)) / s.mpp.current := by
      field_simp
      ring
    have np : 0 < s.mpp.current + g * (s.voc - s.mpp.voltage) := by
      have := mul_pos gp hd
      linarith
    have dp : 0 < 1 - g * (s.mpp.voltage - s.voc) / s.mpp.current := by
      rw [den]
      exact div_pos np im
    simp only [if_pos hc, if_neg im.ne', if_neg dp.ne']
    obtain ⟨i, hidef⟩ : ∃ i, i = g * s.voc / (1 - g * (s.mpp.voltage - s.voc) / s.mpp.current) := ⟨_, rfl⟩
    obtain ⟨v, hvdef⟩ : ∃ v, v = i / g := ⟨_, rfl⟩
    have iv : i = g * v := by
      rw [hvdef, mul_div_cancel₀ _ gp.ne']
    have ev : v * (s.mpp.current + g * (s.voc - s.mpp.voltage)) = s.mpp.current * s.voc := by
      have : i * (1 - g * (s.mpp.voltage - s.voc) / s.mpp.current) = g * s.voc := by
        rw [hidef, div_mul_cancel₀ _ dp.ne']
      rw [den, iv, mul_div_assoc', div_eq_iff im.ne'] at this
      have : g * (v * (s.mpp.current + g * (s.voc - s.mpp.voltage))) = g * (s.mpp.current * s.voc) := by linarith
      exact mul_left_cancel₀ gp.ne' this
    have vpos : 0 < v := (pos_iff_pos_of_mul_pos (by rw [ev]; exact mul_pos im vp)).2 np
    have vlt : v < s.voc := by
      by_contra c
      push Not at c
      have := mul_le_mul_of_nonneg_right c np.le
      rw [ev] at this
      have := mul_pos vp (mul_pos gp hd)
      nlinarith
    have vge : s.mpp.voltage ≤ v := by
      by_contra c
      push Not at c
      have h1 := mul_lt_mul_of_pos_right c np
      rw [ev] at h1
      have := mul_nonneg (sub_nonneg.2 hgi) hd.le
      nlinarith
    rw [← hidef, ← hvdef]
    refine ⟨_, rfl, rfl, iv, rfl, vpos, vlt, ?_, ?_⟩
    · intro hle
      have e : v = s.mpp.voltage := le_antisymm hle vge
      simp only [iv]
      rw [e] at ev ⊢
      have : (s.voc - s.mpp.voltage) * (g * s.mpp.voltage) = (s.voc - s.mpp.voltage) * s.mpp.current := by linarith
      have := mul_left_cancel₀ hd.ne' this
      rw [this]
      ring
    · intro _
      simp only
      rw [iv]
      linarith
  · have hgi : s.mpp.current < g * s.mpp.voltage := by
      rw [eg, not_le, div_lt_iff₀ vm] at hc
      exact hc
    have hne : s.mpp.current - s.isc ≠ 0 := by linarith
    have hneg : 0 < s.isc - s.mpp.current := by linarith
    have den : 1 - g * (s.mpp.voltage / (s.mpp.current - s.isc)) =
        (s.isc - s.mpp.current + g * s.mpp.voltage) / (s.isc - s.mpp.current) := by
      have : s.mpp.voltage / (s.mpp.current - s.isc) = -(s.mpp.voltage / (s.isc - s.mpp.current)) := by
        rw [← neg_sub, div_neg]
      rw [this]
      field_simp
      ring
    have np : 0 < s.isc - s.mpp.current + g * s.mpp.voltage := by
      have := mul_pos gp vm
      linarith
    have dp : 0 < 1 - g * (s.mpp.voltage / (s.mpp.current - s.isc)) := by
      rw [den]
      exact div_pos np hneg
    simp only [if_neg hc, if_neg hne, if_neg dp.ne']
    obtain ⟨i, hidef⟩ : ∃ i, i = -g * (s.mpp.voltage / (s.mpp.current - s.isc)) * s.isc /
      (1 - g * (s.mpp.voltage / (s.mpp.current - s.isc))) := ⟨_, rfl⟩
    obtain ⟨v, hvdef⟩ : ∃ v, v = i / g := ⟨_, rfl⟩
    have iv : i = g * v := by
      rw [hvdef, mul_div_cancel₀ _ gp.ne']
    have ev : v * (s.isc - s.mpp.current + g * s.mpp.voltage) = s.mpp.voltage * s.isc := by
      have : i * (1 - g * (s.mpp.voltage / (s.mpp.current - s.isc))) = -g * (s.mpp.voltage / (s.mpp.current - s.isc)) * s.isc := by
        rw [hidef, div_mul_cancel₀ _ dp.ne']
      have e2 : -g * (s.mpp.voltage / (s.mpp.current - s.isc)) * s.isc = g * s.mpp.voltage * s.isc / (s.isc - s.mpp.current) := by
        rw [← neg_sub s.isc s.mpp.current, div_neg]
        ring
      rw [e2, den, iv, mul_div_assoc', div_left_inj' hneg.ne'] at this
      have : g * (v * (s.isc - s.mpp.current + g * s.mpp.voltage)) = g * (s.mpp.voltage * s.isc) := by linarith
      exact mul_left_cancel₀ gp.ne' this
    have ip : 0 < s.isc := im.trans ii
    have vpos : 0 < v := (pos_iff_pos_of_mul_pos (by rw [ev]; exact mul_pos vm ip)).2 np
    have vlt : v < s.mpp.voltage := by
      by_contra c
      push Not at c
      have h1 := mul_le_mul_of_nonneg_right c np.le
      rw [ev] at h1
      have := mul_pos vm (sub_pos.2 hgi)
      nlinarith
    rw [← hidef, ← hvdef]
    refine ⟨_, rfl, rfl, iv, rfl, vpos, vlt.trans h.v1, ?_, ?_⟩
    · intro _
      simp only
      rw [iv]
      linarith
    · intro c
      exact absurd c (not_le.2 vlt)

/-! ## Dark strings -/

/-- **C77**: the failure.  A string whose source gives less than its shunt takes, and whose diodes take more than its cells
give, is said to have power at its maximum power point (the product of a negative current and a negative voltage), though its open
circuit voltage is negative and it has no short circuit current. -/
theorem c77_dark_string_power [FloorRing K] (c : StringConfig K) (i : StringInput K) (n : ℤ) (hn : activeCells c i = n) (h0 : 0 < n)
    (hser : 1 / idealDiode ≤ n * c.series) (s : PvString K) (hs : updateString c i = s) (hsh : 0 < s.shuntDrop)
    (hsrc : s.source = 0) (hdrop : s.shuntDrop + s.shuntDrop / s.rsh * s.rs < s.seriesDrop) :
    0 < s.mpp.power ∧ s.voc < 0 ∧ s.isc = 0 ∧ s.mpp.voltage = dblEps ∧ 0 < s.mpp.current := by
  have hD : (0 : K) < 1 / idealDiode := by
    unfold idealDiode
    norm_num
  subst hs
  unfold updateString at hsh hsrc hdrop ⊢
  simp only [hn, if_pos h0] at hsh hsrc hdrop ⊢
  generalize n * c.voc * max (1 + (i.temp - c.refTemp) * c.voltCoeff) 0 = sh at hsh hsrc hdrop ⊢
  generalize c.blockingDrop + bypassedGroups c i * c.bypassDrop = sd at hsh hsrc hdrop ⊢
  generalize (if sh > dblEps then _ else _ : K) = il at hsh hsrc hdrop ⊢
  obtain ⟨rsh, hrsh⟩ : ∃ r, r = max (1 / idealDiode) c.shunt := ⟨_, rfl⟩
  obtain ⟨rs, hrs⟩ : ∃ r, r = max (1 / idealDiode) (n * c.series) := ⟨_, rfl⟩
  have hrs' : rs = n * c.series := by rw [hrs, max_eq_right hser]
  have rshp : 0 < rsh := by
    rw [hrsh]
    exact lt_of_lt_of_le hD (le_max_left _ _)
  have rsp : 0 < rs := by
    rw [hrs]
    exact lt_of_lt_of_le hD (le_max_left _ _)
  rw [← hrsh, ← hrs] at hdrop
  rw [← hrsh, ← hrs]
  subst hsrc
  have q : 0 < sh / rsh := div_pos hsh rshp
  have hp : 0 < sh * 0 - sh * (sh / rsh) - (0 - sh / rsh) * sd - (0 - sh / rsh) * (0 - sh / rsh) * n * c.series := by
    have e : sh * 0 - sh * (sh / rsh) - (0 - sh / rsh) * sd - (0 - sh / rsh) * (0 - sh / rsh) * n * c.series =
        sh / rsh * (sd - sh - sh / rsh * (n * c.series)) := by ring
    rw [e, ← hrs']
    exact mul_pos q (by linarith)
  have hm : max dblEps (sh - (0 - sh / rsh) * rs - sd) = (dblEps : K) := by
    apply max_eq_left
    have := dblEps_pos (K := K)
    nlinarith
  have sdp : 0 < sd := by
    have := mul_pos q rsp
    linarith
  unfold stringMpp
  simp only [max_eq_right hp.le, if_pos (show _ > (0 : K) from hp), hm]
  refine ⟨hp, ?_, ?_, trivial, div_pos hp dblEps_pos⟩
  · have := mul_pos q rsp
    rw [zero_mul, zero_div]
    linarith
  · apply max_eq_left
    apply div_nonpos_of_nonpos_of_nonneg
    · linarith
    · linarith

/-! ## The second model -/

/-- **C77**: in the second model the maximum power point and the open circuit of the string are those of its cells: the voltage
of a cell there is that of the cell's own point. -/
theorem c77_string2_points (n : ℤ) (hn : 0 < n) (sd vmp imp voc : K) (h : sd < vmp * n) (h2 : sd < voc * n) :
    cellVoltage n sd (stringMpp2 n sd vmp imp).voltage = vmp ∧ (stringMpp2 n sd vmp imp).current = imp ∧
      (stringMpp2 n sd vmp imp).power = (stringMpp2 n sd vmp imp).voltage * imp ∧
      (stringMpp2 n sd vmp imp).conductance * (stringMpp2 n sd vmp imp).voltage = imp ∧
      cellVoltage n sd (stringVoc2 n sd voc) = voc := by
  have hn' : (n : K) ≠ 0 := by exact_mod_cast hn.ne'
  have hp : 0 < vmp * n - sd := by linarith
  unfold stringMpp2 stringVoc2 cellVoltage
  simp only [max_eq_right hp.le, max_eq_right (sub_nonneg.2 h2.le), if_pos (show vmp * n - sd > 0 from hp), sub_add_cancel]
  exact ⟨mul_div_cancel_right₀ _ hn', trivial, trivial, div_mul_cancel₀ _ hp.ne', mul_div_cancel_right₀ _ hn'⟩

omit [IsStrictOrderedRing K] in
/-- **C77**: the second model has no working points but three: a power put on it, if not negligible, is taken as the maximum
power, and else it is at one of the ends of its curve. -/
theorem c77_string2_load_power (isc voc : K) (mpp : Load K) (power : K) (short : Bool) :
    (dblEps < power → loadAtPower2 isc voc mpp power short = mpp) ∧
      (power ≤ dblEps → (loadAtPower2 isc voc mpp power short).power = 0 ∧
        (short = true → (loadAtPower2 isc voc mpp power short).voltage = 0 ∧ (loadAtPower2 isc voc mpp power short).current = isc) ∧
        (short = false → (loadAtPower2 isc voc mpp power short).voltage = voc ∧ (loadAtPower2 isc voc mpp power short).current = 0)) := by
  unfold loadAtPower2
  constructor
  · intro h
    rw [if_neg (not_le.2 h)]
  · intro h
    rw [if_pos h]
    cases short <;> simp

end Field

/-! ## Loads by power -/

private theorem root_pick {a b p : ℝ} (ha : a < 0) (hd : 0 < b * b + 4 * a * p) (sign : ℝ) (hs : sign * sign = 1) (i : ℝ)
    (hi : i = 1 / 2 * (sign * √(b * b + 4 * a * p) - b) / a) : (a * i + b) * i = p ∧ 2 * a * i + b = sign * √(b * b + 4 * a * p) := by
  have sq := Real.mul_self_sqrt hd.le
  generalize √(b * b + 4 * a * p) = r at hi sq ⊢
  have e : 2 * a * i + b = sign * r := by
    have : i * a = 1 / 2 * (sign * r - b) := by rw [hi, div_mul_cancel₀ _ ha.ne]
    linarith
  refine ⟨?_, e⟩
  have : 4 * a * ((a * i + b) * i) = 4 * a * p := by
    have : (2 * a * i + b) * (2 * a * i + b) = b * b + 4 * a * p := by
      rw [e]
      calc sign * r * (sign * r) = sign * sign * (r * r) := by ring
        _ = b * b + 4 * a * p := by rw [hs, sq, one_mul]
    linarith
  exact mul_left_cancel₀ (by linarith) this

/-- **C77**: a string put at a power less than the maximum is at a point of its curve of that power, on the side of the
maximum power point that was asked for. -/
theorem c77_load_power (s : PvString ℝ) (h : ProperString s) (old : Load ℝ) (p : ℝ) (short : Bool) (h0 : 0 < p)
    (h1 : p < s.mpp.power) :
    ∃ l, s.loadAtPower old p short = l ∧ l.power = p ∧ l.voltage * l.current = p ∧ l.conductance * l.voltage = l.current ∧
      0 < l.voltage ∧ 0 < l.current ∧ (l.voltage < s.mpp.voltage ↔ short = true) ∧
      PvLines s.isc s.mpp.voltage s.mpp.current s.voc l.voltage l.current := by
  have vm : 0 < s.mpp.voltage := lt_trans dblEps_pos h.v0
  have hd : 0 < s.voc - s.mpp.voltage := by linarith [h.v1]
  have im := h.i0
  have ii := h.i1
  have di : 0 < s.isc - s.mpp.current := by linarith
  have ip : 0 < s.isc := im.trans ii
  rw [h.p] at h1
  unfold PvString.loadAtPower
  rw [if_pos ⟨h0, by rw [h.p]; exact h1, ii⟩]
  cases short with
  | true =>
    simp only [if_true]
    obtain ⟨a, hadef⟩ : ∃ a, a = s.mpp.voltage / (s.mpp.current - s.isc) := ⟨_, rfl⟩
    rw [← hadef]
    have ha : a < 0 := by
      rw [hadef]
      exact div_neg_of_pos_of_neg vm (by linarith)
    have hae : a * (s.mpp.current - s.isc) = s.mpp.voltage := by
      rw [hadef, div_mul_cancel₀ _ (by linarith)]
    have hdisc : 0 < -a * s.isc * (-a * s.isc) + 4 * a * p := by
      have k : p < -a * ((s.isc - s.mpp.current) * s.mpp.current) := by
        calc p < s.mpp.voltage * s.mpp.current := h1
          _ = _ := by rw [← hae]; ring
      have sq : 4 * ((s.isc - s.mpp.current) * s.mpp.current) ≤ s.isc * s.isc := by
        nlinarith [sq_nonneg (s.isc - 2 * s.mpp.current)]
      have := mul_lt_mul_of_pos_left k (neg_pos.2 ha)
      nlinarith [mul_le_mul_of_nonneg_left sq (mul_pos (neg_pos.2 ha) (neg_pos.2 ha)).le]
    have edisc : -a * s.isc * (-a * s.isc) - 4 * a * -p = -a * s.isc * (-a * s.isc) + 4 * a * p := by ring
    rw [edisc, if_pos ⟨hdisc, ha⟩]
    obtain ⟨i, hidef⟩ : ∃ i, i = 1 / 2 * (-1 * √(-a * s.isc * (-a * s.isc) + 4 * a * p) - -a * s.isc) / a := ⟨_, rfl⟩
    obtain ⟨e1, e2⟩ := root_pick ha hdisc (-1) (by norm_num) i hidef
    rw [← hidef]
    have sp : 0 < √(-a * s.isc * (-a * s.isc) + 4 * a * p) := Real.sqrt_pos.2 hdisc
    have i0 : s.isc < 2 * i := by
      by_contra c
      push Not at c
      nlinarith
    have ipos : 0 < i := by linarith
    have vv : p / i = a * (i - s.isc) := by
      rw [div_eq_iff ipos.ne', ← e1]
      ring
    have vpos : 0 < p / i := div_pos h0 ipos
    have ilt : s.mpp.current < i := by
      by_contra c
      push Not at c
      -- the parabola falls beyond its top
      have k : -a * ((s.isc - s.mpp.current) * s.mpp.current) ≤ -a * ((s.isc - i) * i) := by
        apply mul_le_mul_of_nonneg_left _ (by linarith)
        nlinarith
      have k2 : -a * ((s.isc - i) * i) = p := by rw [← e1]; ring
      have k3 : -a * ((s.isc - s.mpp.current) * s.mpp.current) = s.mpp.voltage * s.mpp.current := by rw [← hae]; ring
      linarith
    have vlt : p / i < s.mpp.voltage := by
      rw [vv, ← hae]
      nlinarith
    refine ⟨_, rfl, rfl, div_mul_cancel₀ _ ipos.ne', div_mul_cancel₀ _ vpos.ne', vpos, ipos, ⟨fun _ => trivial, fun _ => vlt⟩, ?_, ?_⟩
    · intro _
      simp only
      rw [vv, ← hae]
      ring
    · intro c
      exact absurd c (not_le.2 vlt)
  | false =>
    simp only [Bool.false_eq_true, if_false]
    obtain ⟨a, hadef⟩ : ∃ a, a = (s.mpp.voltage - s.voc) / s.mpp.current := ⟨_, rfl⟩
    rw [← hadef]
    have ha : a < 0 := by
      rw [hadef]
      exact div_neg_of_neg_of_pos (by linarith) im
    have hae : a * s.mpp.current = s.mpp.voltage - s.voc := by
      rw [hadef, div_mul_cancel₀ _ im.ne']
    have hdisc : 0 < s.voc * s.voc + 4 * a * p := by
      have k : a * (s.mpp.voltage * s.mpp.current) < a * p := mul_lt_mul_of_neg_left h1 ha
      have k2 : a * (s.mpp.voltage * s.mpp.current) = s.mpp.voltage * (s.mpp.voltage - s.voc) := by rw [← hae]; ring
      nlinarith [sq_nonneg (s.voc - 2 * s.mpp.voltage)]
    have edisc : s.voc * s.voc - 4 * a * -p = s.voc * s.voc + 4 * a * p := by ring
    rw [edisc, if_pos ⟨hdisc, ha⟩]
    obtain ⟨i, hidef⟩ : ∃ i, i = 1 / 2 * (1 * √(s.voc * s.voc + 4 * a * p) - s.voc) / a := ⟨_, rfl⟩
    obtain ⟨e1, e2⟩ := root_pick ha hdisc 1 (by norm_num) i hidef
    rw [← hidef]
    have sp : 0 < √(s.voc * s.voc + 4 * a * p) := Real.sqrt_pos.2 hdisc
    have slt : √(s.voc * s.voc + 4 * a * p) < s.voc := by
      rw [Real.sqrt_lt' (by linarith)]
      nlinarith [mul_pos (neg_pos.2 ha) h0]
    have ipos : 0 < i := by
      by_contra c
      push Not at c
      nlinarith [mul_nonneg_of_nonpos_of_nonpos ha.le c]
    have vv : p / i = a * i + s.voc := by
      rw [div_eq_iff ipos.ne', ← e1]
    have vpos : 0 < p / i := div_pos h0 ipos
    have ilt : i < s.mpp.current := by
      by_contra c
      push Not at c
      -- (a x + voc) x rises up to i
      have k : (a * s.mpp.current + s.voc) * s.mpp.current ≤ (a * i + s.voc) * i := by
        have t : 0 ≤ a * (i + s.mpp.current) + s.voc := by
          have : a * i ≤ a * s.mpp.current := mul_le_mul_of_nonpos_left c ha.le
          nlinarith
        nlinarith [mul_nonneg (sub_nonneg.2 c) t]
      rw [e1, hae] at k
      nlinarith
    have vgt : s.mpp.voltage < p / i := by
      rw [vv]
      have := mul_lt_mul_of_neg_left ilt ha
      linarith
    refine ⟨_, rfl, rfl, div_mul_cancel₀ _ ipos.ne', div_mul_cancel₀ _ vpos.ne', vpos, ipos, ⟨fun c => absurd c (not_lt.2 vgt.le), fun c => by simp at c⟩, ?_, ?_⟩
    · intro c
      exact absurd c (not_le.2 vgt)
    · intro _
      simp only
      rw [vv]
      linear_combination i * hae

/-! ## The light on a section -/

/-- **C77**: the light on a section is at most that of the source, and on the front it is the share of the cosine (or, for
edge-on angles, of the sine) to the power of the exponent. -/
theorem c77_section_flux (edgeOn : Bool) (angle exponent backside magnitude exposed : ℝ) (he : 0 ≤ exponent)
    (hm : 0 ≤ magnitude) (h0 : 0 ≤ exposed) (h1 : exposed ≤ 1) :
    0 ≤ sectionFlux magnitude exposed (facing edgeOn angle exponent backside) ∧
      sectionFlux magnitude exposed (facing edgeOn angle exponent backside) ≤ magnitude ∧
      (0 ≤ (if edgeOn then Real.sin angle else Real.cos angle) →
        sectionFlux magnitude exposed (facing edgeOn angle exponent backside) =
          magnitude * exposed * (if edgeOn then Real.sin angle else Real.cos angle) ^ exponent) ∧
      ((if edgeOn then Real.sin angle else Real.cos angle) < 0 → 1 ≤ backside →
        sectionFlux magnitude exposed (facing edgeOn angle exponent backside) = 0) ∧
      ((if edgeOn then Real.sin angle else Real.cos angle) < 0 → 0 ≤ backside → backside ≤ 1 →
        sectionFlux magnitude exposed (facing edgeOn angle exponent backside) =
          (1 - backside) * (magnitude * exposed * (-(if edgeOn then Real.sin angle else Real.cos angle)) ^ exponent)) := by
  have ht : |(if edgeOn then Real.sin angle else Real.cos angle)| ≤ 1 := by
    cases edgeOn
    · simp only [Bool.false_eq_true, if_false]
      exact Real.abs_cos_le_one _
    · simp only [if_true]
      exact Real.abs_sin_le_one _
  unfold sectionFlux facing
  generalize (if edgeOn then Real.sin angle else Real.cos angle : ℝ) = t at ht ⊢
  have p0 : 0 ≤ |t| ^ exponent := Real.rpow_nonneg (abs_nonneg _) _
  have p1 : |t| ^ exponent ≤ 1 := Real.rpow_le_one (abs_nonneg _) ht he
  have l := limit01 (1 - backside)
  have f : 0 ≤ (if t < 0 then |t| ^ exponent * limitRange 0 (1 - backside) 1 else |t| ^ exponent) ∧
      (if t < 0 then |t| ^ exponent * limitRange 0 (1 - backside) 1 else |t| ^ exponent) ≤ 1 := by
    split_ifs
    · exact ⟨mul_nonneg p0 l.1, mul_le_one₀ p1 l.1 l.2⟩
    · exact ⟨p0, p1⟩
  simp only
  refine ⟨mul_nonneg (mul_nonneg hm h0) f.1, ?_, ?_, ?_, ?_⟩
  · have : magnitude * exposed ≤ magnitude := mul_le_of_le_one_right hm h1
    exact (mul_le_of_le_one_right (mul_nonneg hm h0) f.2).trans this
  · intro h
    rw [if_neg (not_lt.2 h), abs_of_nonneg h]
  · intro h hb
    rw [if_pos h]
    have : limitRange 0 (1 - backside) 1 = 0 := by
      unfold limitRange
      exact max_eq_right ((min_le_left _ _).trans (by linarith))
    rw [this]
    ring
  · intro h hb hb1
    rw [if_pos h, limit01_id (by linarith) (by linarith), abs_of_neg h]
    ring

/-! ## The malfunction of the flux -/

private theorem sin_unit (x : ℝ) :
    0 ≤ 1 / 2 * (1 + Real.sin (Real.pi * (x - 1 / 2))) ∧ 1 / 2 * (1 + Real.sin (Real.pi * (x - 1 / 2))) ≤ 1 := by
  have := Real.neg_one_le_sin (Real.pi * (x - 1 / 2))
  have := Real.sin_le_one (Real.pi * (x - 1 / 2))
  constructor <;> linarith

/-- **C77**: the ramp goes from the flux without the malfunction to the flux of the malfunction. -/
theorem c77_ramp (m : FluxMalf) (time out : ℝ) :
    min out m.magnitude ≤ m.ramp time out ∧ m.ramp time out ≤ max out m.magnitude ∧
      (0 < m.rampTime → m.ramp 0 out = out ∧ m.ramp m.rampTime out = m.magnitude) ∧
      (m.rampTime ≤ 0 → m.ramp time out = m.magnitude) := by
  have mix : ∀ f : ℝ, 0 ≤ f → f ≤ 1 → min out m.magnitude ≤ out + f * (m.magnitude - out) ∧
      out + f * (m.magnitude - out) ≤ max out m.magnitude := by
    intro f f0 f1
    rcases le_total out m.magnitude with c | c
    · rw [min_eq_left c, max_eq_right c]
      constructor <;> nlinarith
    · rw [min_eq_right c, max_eq_left c]
      constructor <;> nlinarith
  have hf : ∀ f : ℝ, f = (if m.rampTime > 0 then 1 / 2 * (1 + Real.sin (Real.pi * (limitRange 0 (time / m.rampTime) 1 - 1 / 2))) else 1) →
      0 ≤ f ∧ f ≤ 1 := by
    intro f hf
    rw [hf]
    split_ifs
    · exact sin_unit _
    · exact ⟨zero_le_one, le_rfl⟩
  refine ⟨(mix _ (hf _ rfl).1 (hf _ rfl).2).1, (mix _ (hf _ rfl).1 (hf _ rfl).2).2, ?_, ?_⟩
  · intro h
    unfold FluxMalf.ramp
    simp only [if_pos (show m.rampTime > 0 from h), zero_div, div_self h.ne']
    have e0 : limitRange 0 (0 : ℝ) 1 = 0 := limit01_id le_rfl zero_le_one
    have e1 : limitRange 0 (1 : ℝ) 1 = 1 := limit01_id zero_le_one le_rfl
    have s0 : Real.sin (Real.pi * (0 - 1 / 2)) = -1 := by
      rw [show Real.pi * (0 - 1 / 2) = -(Real.pi / 2) by ring, Real.sin_neg, Real.sin_pi_div_two]
    have s1 : Real.sin (Real.pi * (1 - 1 / 2)) = 1 := by
      rw [show Real.pi * (1 - 1 / 2) = Real.pi / 2 by ring, Real.sin_pi_div_two]
    rw [e0, e1, s0, s1]
    constructor <;> ring
  · intro h
    unfold FluxMalf.ramp
    simp only [if_neg (not_lt.2 h)]
    ring

/-- The flux of each pass with the fluxes `amb` of the source, and the state before the pass. -/
noncomputable def malfState (m : FluxMalf) (dt : ℝ) (amb : ℕ → ℝ) : ℕ → FluxMalf
  | 0 => m
  | k + 1 => ((malfState m dt amb k).apply dt (amb k)).2

noncomputable def malfFlux (m : FluxMalf) (dt : ℝ) (amb : ℕ → ℝ) (k : ℕ) : ℝ := ((malfState m dt amb k).apply dt (amb k)).1

private theorem malf_running (m : FluxMalf) (dt : ℝ) (amb : ℕ → ℝ) (hdt : 0 < dt) (hf : m.flag = true) (he : m.elapsed = 0)
    (hd : 0 < m.duration) (r0 : 0 ≤ m.rampTime) (r1 : m.rampTime ≤ 1 / 2 * m.duration) (k : ℕ) :
    (k * dt ≤ m.duration + dt → (malfState m dt amb k).flag = true ∧ (malfState m dt amb k).elapsed = k * dt ∧
      (malfState m dt amb k).duration = m.duration ∧ (malfState m dt amb k).rampTime = m.rampTime ∧
      (malfState m dt amb k).magnitude = m.magnitude ∧ (1 ≤ k → (malfState m dt amb k).start = amb 0)) := by
  have lr : limitRange 0 m.rampTime (1 / 2 * m.duration) = m.rampTime := by
    unfold limitRange
    rw [min_eq_left r1, max_eq_left r0]
  induction k with
  | zero =>
    intro _
    refine ⟨hf, ?_, rfl, rfl, rfl, fun h => absurd h (by norm_num)⟩
    simp only [malfState, he]
    norm_num
  | succ k ih =>
    intro hk
    push_cast at hk
    obtain ⟨i1, i2, i3, i4, i5, i6⟩ := ih (by linarith)
    have hle : (k : ℝ) * dt ≤ m.duration := by linarith
    simp only [malfState]
    unfold FluxMalf.apply
    rw [if_pos ⟨i1, by rw [i3]; exact hd⟩]
    simp only [i2, i3, i4, i5, lr, if_neg (show ¬ (k : ℝ) * dt > m.duration from not_lt.2 hle)]
    by_cases hz : (0 : ℝ) = k * dt
    · have k0 : k = 0 := by
        by_contra c
        have : (0 : ℝ) < k := by exact_mod_cast Nat.pos_of_ne_zero c
        have := mul_pos this hdt
        linarith
      subst k0
      rw [if_pos hz]
      refine ⟨i1, ?_, rfl, rfl, rfl, fun _ => rfl⟩
      push_cast
      ring
    · have k1 : 1 ≤ k := by
        by_contra c
        apply hz
        have : k = 0 := by omega
        rw [this]
        norm_num
      rw [if_neg hz]
      split_ifs <;> exact ⟨i1, by push_cast; ring, rfl, rfl, rfl, fun _ => i6 k1⟩

/-- **C77**: a malfunction of the flux, through all of its passes: the pass that starts it has the flux of the source, then it
rises along the ramp from there, holds its flux, falls along the ramp to the flux of the source, and after its duration it is
off. -/
theorem c77_flux_malf (m : FluxMalf) (dt : ℝ) (amb : ℕ → ℝ) (hdt : 0 < dt) (hf : m.flag = true) (he : m.elapsed = 0)
    (hd : 0 < m.duration) (r0 : 0 ≤ m.rampTime) (r1 : m.rampTime ≤ 1 / 2 * m.duration) (k : ℕ) :
    (k = 0 → malfFlux m dt amb k = amb 0) ∧
      (1 ≤ k → k * dt ≤ m.rampTime → k * dt ≤ m.duration - m.rampTime → malfFlux m dt amb k = m.ramp (k * dt) (amb 0)) ∧
      (m.rampTime < k * dt → k * dt ≤ m.duration - m.rampTime → malfFlux m dt amb k = m.magnitude) ∧
      (1 ≤ k → m.duration - m.rampTime < k * dt → k * dt ≤ m.duration →
        malfFlux m dt amb k = m.ramp (m.duration - k * dt) (amb k)) ∧
      (m.duration < k * dt → malfFlux m dt amb k = amb k ∧ (malfState m dt amb (k + 1)).flag = false) := by
  have lr : limitRange 0 m.rampTime (1 / 2 * m.duration) = m.rampTime := by
    unfold limitRange
    rw [min_eq_left r1, max_eq_left r0]
  have kpos : 1 ≤ k → ¬ (0 : ℝ) = k * dt := by
    intro h c
    have : (0 : ℝ) < k := by exact_mod_cast h
    have := mul_pos this hdt
    linarith
  have rampEq : ∀ (a : FluxMalf) (t o : ℝ), a.magnitude = m.magnitude → a.rampTime = m.rampTime → a.ramp t o = m.ramp t o := by
    intro a t o h1 h2
    unfold FluxMalf.ramp
    rw [h1, h2]
  -- a pass while it runs
  have run := malf_running m dt amb hdt hf he hd r0 r1 k
  have off : ∀ j : ℕ, m.duration < j * dt → (malfState m dt amb (j + 1)).flag = false ∧ malfFlux m dt amb j = amb j := by
    intro j
    induction j with
    | zero =>
      intro h
      norm_num at h
      linarith
    | succ j ih =>
      intro h
      by_cases hj : m.duration < j * dt
      · obtain ⟨f1, -⟩ := ih hj
        constructor
        · show (((malfState m dt amb (j + 1)).apply dt (amb (j + 1))).2).flag = false
          unfold FluxMalf.apply
          rw [if_neg (by rw [f1]; simp)]
          exact f1
        · unfold malfFlux FluxMalf.apply
          rw [if_neg (by rw [f1]; simp)]
      · push Not at hj
        obtain ⟨i1, i2, i3, i4, i5, i6⟩ := malf_running m dt amb hdt hf he hd r0 r1 (j + 1) (by push_cast; linarith)
        constructor
        · show (((malfState m dt amb (j + 1)).apply dt (amb (j + 1))).2).flag = false
          unfold FluxMalf.apply
          rw [if_pos ⟨i1, by rw [i3]; exact hd⟩]
          simp only [i2, i3]
          rw [if_pos h]
        · unfold malfFlux FluxMalf.apply
          rw [if_pos ⟨i1, by rw [i3]; exact hd⟩]
          simp only [i2, i3]
          rw [if_pos h]
  refine ⟨?_, ?_, ?_, ?_, fun h => ⟨(off k h).2, (off k h).1⟩⟩
  · intro h
    subst h
    unfold malfFlux malfState FluxMalf.apply
    rw [if_pos ⟨hf, hd⟩]
    simp only [he]
    rw [if_neg (show ¬ (0 : ℝ) > m.duration from not_lt.2 hd.le), if_pos trivial]
  · intro h1 h2 h3
    obtain ⟨i1, i2, i3, i4, i5, i6⟩ := run (by linarith)
    unfold malfFlux FluxMalf.apply
    rw [if_pos ⟨i1, by rw [i3]; exact hd⟩]
    simp only [i2, i3, i4, lr]
    rw [if_neg (not_lt.2 (by linarith)), if_neg (kpos h1), if_neg (not_lt.2 h3), if_neg (not_lt.2 h2)]
    simp only
    rw [i6 h1]
    exact rampEq _ _ _ i5 rfl
  · intro h2 h3
    obtain ⟨i1, i2, i3, i4, i5, i6⟩ := run (by linarith)
    have h1 : 1 ≤ k := by
      by_contra c
      have : k = 0 := by omega
      rw [this] at h2
      norm_num at h2
      linarith
    unfold malfFlux FluxMalf.apply
    rw [if_pos ⟨i1, by rw [i3]; exact hd⟩]
    simp only [i2, i3, i4, lr]
    rw [if_neg (not_lt.2 (by linarith)), if_neg (kpos h1), if_neg (not_lt.2 h3), if_pos h2]
    exact i5
  · intro h1 h2 h3
    obtain ⟨i1, i2, i3, i4, i5, i6⟩ := run (by linarith)
    unfold malfFlux FluxMalf.apply
    rw [if_pos ⟨i1, by rw [i3]; exact hd⟩]
    simp only [i2, i3, i4, lr]
    rw [if_neg (not_lt.2 h3), if_neg (kpos h1), if_pos h2]
    simp only
    exact rampEq _ _ _ i5 rfl

/-! ## Examples -/

private def exConfig : StringConfig ℚ where
  blockingDrop := 1
  bypassDrop := 1
  interval := 5
  numCells := 60
  area := 1 / 100
  efficiency := 1 / 5
  series := 1 / 1000
  shunt := 100
  voc := 7 / 10
  refTemp := 300
  voltCoeff := -1 / 500
  currCoeff := 1 / 2000

/-- A string of sixty cells, eight groups of twelve in the light. -/
example : activeCells exConfig ⟨1400, 7 / 10, 310, none, none⟩ = 40 := by decide +kernel

/-- The malfunction takes ten groups. -/
example : activeCells exConfig ⟨1400, 7 / 10, 310, none, some 10⟩ = 10 := by decide +kernel

private instance (s : PvString ℚ) : Decidable (ProperString s) :=
  decidable_of_iff (dblEps < s.mpp.voltage ∧ s.mpp.voltage < s.voc ∧ 0 < s.mpp.current ∧ s.mpp.current < s.isc ∧
      s.mpp.power = s.mpp.voltage * s.mpp.current ∧ s.mpp.conductance * s.mpp.voltage = s.mpp.current)
    ⟨fun h => ⟨h.1, h.2.1, h.2.2.1, h.2.2.2.1, h.2.2.2.2.1, h.2.2.2.2.2⟩,
      fun h => ⟨h.v0, h.v1, h.i0, h.i1, h.p, h.g⟩⟩

/-- In full light its points are in order, and its maximum power point is one. -/
example : ProperString (updateString exConfig ⟨1400, 1, 310, none, none⟩) ∧
    (updateString exConfig ⟨1400, 1, 310, none, none⟩).isc ≤ 2 * (updateString exConfig ⟨1400, 1, 310, none, none⟩).mpp.current ∧
    (updateString exConfig ⟨1400, 1, 310, none, none⟩).voc ≤ 2 * (updateString exConfig ⟨1400, 1, 310, none, none⟩).mpp.voltage := by
  decide +kernel

/-- The failure, in the dark and with eleven of the twelve groups bypassed: 3.43 V of cells against 12 V of diodes, and 0.29 W. -/
example : (updateString exConfig ⟨0, 1 / 12, 310, none, none⟩).mpp.power = 29394511755 / 100000000000 ∧
    (updateString exConfig ⟨0, 1 / 12, 310, none, none⟩).voc = -857 / 100 ∧
    (updateString exConfig ⟨0, 1 / 12, 310, none, none⟩).isc = 0 := by
  decide +kernel

/-- The failure of the maximum power point: the string of 3 A and 30 V whose corner is at 1 A and 20 V makes 22.5 W at 15 V. -/
example : (PvString.predict (K := ℚ) ⟨1, 0, 0, 0, 1, 1, 3, 30, ⟨1 / 20, 1, 20, 20⟩⟩ 15) * 15 = 45 / 2 ∧
    ProperString (K := ℚ) ⟨1, 0, 0, 0, 1, 1, 3, 30, ⟨1 / 20, 1, 20, 20⟩⟩ := by
  decide +kernel

/-- A malfunction of ten seconds with ramps of two meets the hypotheses. -/
example : ∃ m : FluxMalf, m.flag = true ∧ m.elapsed = 0 ∧ 0 < m.duration ∧ 0 ≤ m.rampTime ∧ m.rampTime ≤ 1 / 2 * m.duration :=
  ⟨⟨true, 500, 10, 2, 0, 0⟩, rfl, rfl, by norm_num, by norm_num, by norm_num⟩

end Gunns.Props
