import Verif.Elect.PvCell
import Verif.Props.LambertW
import Mathlib.Tactic.LinearCombination
import Mathlib.Tactic.FieldSimp

/-!
# C76: the photovoltaic cell

The reference is the single-diode circuit: a current source, a diode and a shunt resistance in parallel, and a series resistance.
-/

namespace Gunns.Props

open Real Gunns.Lambert Gunns.Pv

/-- Kirchhoff's law at the diode for the voltage `v` and the current `i` at the terminals, and the saturation current `s` that is
added: the source current, less the current of the diode, less that of the shunt, less that through the series resistance. -/
noncomputable def pvBalance (c : Cell) (s v i : ℝ) : ℝ :=
  c.il + s - c.i0 * exp ((v + i * c.rs) / c.nVt) - (v + i * c.rs) / c.rsh - i

/-- The circuit of Shockley's diode. -/
noncomputable def pvCircuit (c : Cell) (v i : ℝ) : ℝ := pvBalance c c.i0 v i

/-- The elements of the circuit are positive. -/
structure PvProper (c : Cell) : Prop where
  rs : 0 < c.rs
  rsh : 0 < c.rsh
  nVt : 0 < c.nVt
  i0 : 0 < c.i0

/-- The solver of the principal branch is exact. -/
def ExactW0 (w0 : ℝ → Out) : Prop := ∀ z, 0 < z → ∃ w, w0 z = .val w ∧ w * exp w = z

/-- The solver of the other branch is exact where it returns. -/
def ExactW1 (w1 : ℝ → Out) : Prop := ∀ z w, w1 z = .val w → w ≤ -1 ∧ w * exp w = z

private theorem balance_strictAnti {c : Cell} (h : PvProper c) {s v v' i i' : ℝ} (hv : v ≤ v') (hi : i ≤ i')
    (hne : v < v' ∨ i < i') : pvBalance c s v' i' < pvBalance c s v i := by
  obtain ⟨h1, h2, h3, h4⟩ := h
  unfold pvBalance
  have hd : v + i * c.rs < v' + i' * c.rs := by
    rcases hne with h | h
    · nlinarith
    · nlinarith [mul_lt_mul_of_pos_right h h1]
  have he : exp ((v + i * c.rs) / c.nVt) < exp ((v' + i' * c.rs) / c.nVt) :=
    exp_lt_exp.2 (div_lt_div_of_pos_right hd h3)
  have hs : (v + i * c.rs) / c.rsh < (v' + i' * c.rs) / c.rsh := div_lt_div_of_pos_right hd h2
  have := mul_lt_mul_of_pos_left he h4
  linarith

private theorem currentOf_solves {c : Cell} (h : PvProper c) {v w : ℝ} (hw : w * exp w = c.zI v) :
    pvCircuit c v (c.currentOf v w) = 0 := by
  obtain ⟨h1, h2, h3, h4⟩ := h
  have hk : 0 < 1 + c.rs / c.rsh := by positivity
  have hD : (v + c.currentOf v w * c.rs) / c.nVt = c.zexpI v - w := by
    unfold Cell.currentOf Cell.zexpI
    have : c.rs + c.rsh ≠ 0 := by positivity
    field_simp
    ring
  have hE : c.i0 * exp (c.zexpI v - w) = w * (c.nVt * (1 + c.rs / c.rsh) / c.rs) := by
    have h5 : c.i0 * exp (c.zexpI v) = c.nVt * (1 + c.rs / c.rsh) / c.rs * c.zI v := by
      unfold Cell.zI; field_simp
    rw [exp_sub, ← mul_div_assoc, h5, ← hw]
    have := (exp_pos w).ne'
    field_simp
  unfold pvCircuit pvBalance
  rw [hD, hE]
  unfold Cell.currentOf
  field_simp
  ring

private theorem voltageOf_solves {c : Cell} (h : PvProper c) {i w : ℝ} (hw : w * exp w = c.zV i) :
    pvCircuit c (c.voltageOf i w) i = 0 := by
  obtain ⟨h1, h2, h3, h4⟩ := h
  have hD : (c.voltageOf i w + i * c.rs) / c.nVt = c.zexpV i - w := by
    unfold Cell.voltageOf Cell.zexpV
    field_simp
    ring
  have hE : c.i0 * exp (c.zexpV i - w) = w * (c.nVt / c.rsh) := by
    have h5 : c.i0 * exp (c.zexpV i) = c.nVt / c.rsh * c.zV i := by
      unfold Cell.zV; field_simp
    rw [exp_sub, ← mul_div_assoc, h5, ← hw]
    have := (exp_pos w).ne'
    field_simp
  unfold pvCircuit pvBalance
  rw [hD, hE]
  unfold Cell.voltageOf
  field_simp
  ring

private theorem zI_pos {c : Cell} (h : PvProper c) (v : ℝ) : 0 < c.zI v := by
  obtain ⟨h1, h2, h3, h4⟩ := h
  unfold Cell.zI; positivity

private theorem zV_pos {c : Cell} (h : PvProper c) (i : ℝ) : 0 < c.zV i := by
  obtain ⟨h1, h2, h3, h4⟩ := h
  unfold Cell.zV; positivity

private theorem current_eq {w0 : ℝ → Out} {c : Cell} (h : PvProper c) {v w : ℝ} (h0 : dblEps < v) (h1 : v < c.voc)
    (hr : -500 ≤ c.zexpI v ∧ c.zexpI v ≤ 500) (hw : w0 (c.zI v) = .val w) : c.current w0 v = .val (c.currentOf v w) := by
  obtain ⟨g1, g2, g3, g4⟩ := h
  unfold Cell.current
  rw [if_neg (by linarith), if_pos h1, if_neg (by
    rintro (h | h | h | h) <;> linarith), if_neg (not_not.2 hr), hw]

private theorem voltage_eq {w0 : ℝ → Out} {c : Cell} (h : PvProper c) {i w : ℝ} (h0 : dblEps < i) (h1 : i < c.isc)
    (hr : -500 ≤ c.zexpV i ∧ c.zexpV i ≤ 500) (hw : w0 (c.zV i) = .val w) : c.voltage w0 i = .val (c.voltageOf i w) := by
  obtain ⟨g1, g2, g3, g4⟩ := h
  unfold Cell.voltage
  rw [if_neg (by linarith), if_pos h1, if_neg (by linarith), if_neg (not_not.2 hr), hw]

/-- With an exact W the current and the voltage solve the circuit wherever the exponent is in range, and the solution is unique and
falls as the other quantity grows. -/
theorem c76_solves (w0 : ℝ → Out) (hw : ExactW0 w0) (c : Cell) (h : PvProper c) :
    (∀ v, dblEps < v → v < c.voc → -500 ≤ c.zexpI v → c.zexpI v ≤ 500 →
      ∃ i, c.current w0 v = .val i ∧ pvCircuit c v i = 0) ∧
    (∀ i, dblEps < i → i < c.isc → -500 ≤ c.zexpV i → c.zexpV i ≤ 500 →
      ∃ v, c.voltage w0 i = .val v ∧ pvCircuit c v i = 0) ∧
    (∀ v i j, pvCircuit c v i = 0 → pvCircuit c v j = 0 → i = j) ∧
    (∀ u v i, pvCircuit c u i = 0 → pvCircuit c v i = 0 → u = v) ∧
    (∀ u v i j, pvCircuit c u i = 0 → pvCircuit c v j = 0 → u < v → j < i) := by
  refine ⟨fun v h0 h1 h2 h3 => ?_, fun i h0 h1 h2 h3 => ?_, fun v i j hi hj => ?_, fun u v i hu hv => ?_, fun u v i j hi hj huv => ?_⟩
  · obtain ⟨w, e, hz⟩ := hw _ (zI_pos h v)
    exact ⟨_, current_eq h h0 h1 ⟨h2, h3⟩ e, currentOf_solves h hz⟩
  · obtain ⟨w, e, hz⟩ := hw _ (zV_pos h i)
    exact ⟨_, voltage_eq h h0 h1 ⟨h2, h3⟩ e, voltageOf_solves h hz⟩
  · rcases lt_trichotomy i j with h5 | h5 | h5
    · have := balance_strictAnti (s := c.i0) h (le_refl v) h5.le (Or.inr h5)
      unfold pvCircuit at hi hj; linarith
    · exact h5
    · have := balance_strictAnti (s := c.i0) h (le_refl v) h5.le (Or.inr h5)
      unfold pvCircuit at hi hj; linarith
  · rcases lt_trichotomy u v with h5 | h5 | h5
    · have := balance_strictAnti (s := c.i0) h h5.le (le_refl i) (Or.inl h5)
      unfold pvCircuit at hu hv; linarith
    · exact h5
    · have := balance_strictAnti (s := c.i0) h h5.le (le_refl i) (Or.inl h5)
      unfold pvCircuit at hu hv; linarith
  · by_contra hc
    push Not at hc
    have := balance_strictAnti (s := c.i0) h huv.le hc (Or.inl huv)
    unfold pvCircuit at hi hj; linarith

/-- With an exact W the two functions are inverse to each other where neither is at its ends. -/
theorem c76_inverse (w0 : ℝ → Out) (hw : ExactW0 w0) (c : Cell) (h : PvProper c) (v i : ℝ) (hi : c.current w0 v = .val i)
    (h0 : dblEps < v) (h1 : v < c.voc) (h2 : dblEps < i) (h3 : i < c.isc) (h4 : -500 ≤ c.zexpV i ∧ c.zexpV i ≤ 500) :
    c.voltage w0 i = .val v := by
  obtain ⟨s1, s2, s3, s4, s5⟩ := c76_solves w0 hw c h
  have hr : -500 ≤ c.zexpI v ∧ c.zexpI v ≤ 500 := by
    by_contra hc
    obtain ⟨g1, g2, g3, g4⟩ := h
    unfold Cell.current at hi
    rw [if_neg (by linarith), if_pos h1, if_neg (by rintro (h | h | h | h) <;> linarith), if_pos hc] at hi
    cases hi
  obtain ⟨j, e, hj⟩ := s1 v h0 h1 hr.1 hr.2
  rw [hi] at e
  cases e
  obtain ⟨u, e, hu⟩ := s2 i h2 h3 h4.1 h4.2
  rw [e, s4 u v i hu hj]

/-- The code, whose W is a fit: if it is within a fraction `η` of W, the current is within that fraction of W times the thermal
voltage over the series resistance of the circuit's.  For operands up to a tenth the fraction is 2 percent (C75). -/
theorem c76_fast_error (c : Cell) (h : PvProper c) (v W η w i : ℝ) (hW : W * exp W = c.zI v) (hw : fastW0 (c.zI v) = .val w)
    (hη : |w - W| ≤ η * W) (h0 : dblEps < v) (h1 : v < c.voc) (hi : c.currentFast v = .val i) :
    ∃ j, pvCircuit c v j = 0 ∧ |i - j| ≤ η * W * c.nVt / c.rs := by
  have hr : -500 ≤ c.zexpI v ∧ c.zexpI v ≤ 500 := by
    by_contra hc
    obtain ⟨g1, g2, g3, g4⟩ := h
    unfold Cell.currentFast Cell.current at hi
    rw [if_neg (by linarith), if_pos h1, if_neg (by rintro (h | h | h | h) <;> linarith), if_pos hc] at hi
    cases hi
  have e := current_eq h h0 h1 hr hw
  unfold Cell.currentFast at hi
  rw [e] at hi
  cases hi
  refine ⟨c.currentOf v W, currentOf_solves h hW, ?_⟩
  obtain ⟨g1, g2, g3, g4⟩ := h
  have e2 : c.currentOf v w - c.currentOf v W = -(w - W) * (c.nVt / c.rs) := by unfold Cell.currentOf; ring
  have hp : 0 < c.nVt / c.rs := by positivity
  rw [e2, abs_mul, abs_neg, abs_of_pos hp]
  calc |w - W| * (c.nVt / c.rs) ≤ η * W * (c.nVt / c.rs) := mul_le_mul_of_nonneg_right hη hp.le
    _ = η * W * c.nVt / c.rs := by ring

/-- So for small operands the code is within 2 percent of the operand times the thermal voltage over the series resistance. -/
theorem c76_fast_small (c : Cell) (h : PvProper c) (v i W : ℝ) (hW : W * exp W = c.zI v) (hz : c.zI v < 1 / 10)
    (h0 : dblEps < v) (h1 : v < c.voc) (hi : c.currentFast v = .val i) :
    ∃ j, pvCircuit c v j = 0 ∧ |i - j| ≤ 0.02 * c.zI v * c.nVt / c.rs := by
  have hz0 := zI_pos h v
  have hW0 : 0 < W := by
    by_contra hc; push Not at hc
    nlinarith [exp_pos W]
  have hWz : W ≤ c.zI v := by rw [← hW]; nlinarith [one_le_exp hW0.le]
  obtain ⟨a1, a2, _⟩ := c75_fast_accuracy (c.zI v) W (by linarith) hW
  have : ∃ w, fastW0 (c.zI v) = .val w ∧ |w - W| ≤ 0.02 * W := by
    by_cases hs : c.zI v < 1 / 100
    · obtain ⟨r, e, hr⟩ := a1 (by linarith) hs
      refine ⟨r, e, hr.trans ?_⟩
      rw [abs_of_pos hW0]
      norm_num
      linarith
    · obtain ⟨r, e, hr⟩ := a2 (not_lt.1 hs) hz
      rw [abs_of_pos hW0] at hr
      exact ⟨r, e, hr⟩
  obtain ⟨w, e, hη⟩ := this
  obtain ⟨j, hj, hb⟩ := c76_fast_error c h v W 0.02 w i hW e hη h0 h1 hi
  refine ⟨j, hj, hb.trans ?_⟩
  obtain ⟨g1, g2, g3, g4⟩ := h
  gcongr

/-! ## The parameters -/

private theorem derive_val {w1 : ℝ → Out} {c c' : Cell} (he : c.derive w1 = .val c') :
    ∃ w rs, w1 (({ c with nVt := c.ideality * kOverQ * c.temp } : Cell).opB *
        exp ({ c with nVt := c.ideality * kOverQ * c.temp } : Cell).opC) = .val w ∧
      rs = c.ideality * kOverQ * c.temp / c.imp *
        (w - ({ c with nVt := c.ideality * kOverQ * c.temp } : Cell).opD - ({ c with nVt := c.ideality * kOverQ * c.temp } : Cell).opC) ∧
      c.ideality * kOverQ * c.temp ≠ 0 ∧ c.imp ≠ 0 ∧ c.den ≠ 0 ∧
      0 < rs ∧ ({ c with nVt := c.ideality * kOverQ * c.temp } : Cell).denSh rs ≠ 0 ∧ c'.nVt = c.ideality * kOverQ * c.temp ∧
      c'.voc = c.voc ∧ c'.isc = c.isc ∧ c'.vmp = c.vmp ∧ c'.imp = c.imp ∧ c'.rs = rs ∧
      c'.rsh = ({ c with nVt := c.ideality * kOverQ * c.temp } : Cell).shunt rs ∧ 0 < c'.rsh ∧
      c'.i0 = ((c'.rsh + c'.rs) * c.isc - c.voc) / (c'.rsh * exp (c.voc / c'.nVt)) ∧ 0 < c'.i0 ∧
      c'.il = (c'.rsh + c'.rs) * c.isc / c'.rsh ∧ |c.voc / c'.nVt| ≤ 500 ∧ c'.area = c.area ∧ c'.flux = c.flux := by
  unfold Cell.derive at he
  generalize hb : ({ c with nVt := c.ideality * kOverQ * c.temp } : Cell) = b at he ⊢
  have b1 : b.nVt = c.ideality * kOverQ * c.temp := by rw [← hb]
  have b2 : b.imp = c.imp := by rw [← hb]
  have b3 : b.den = c.den := by rw [← hb]; rfl
  have b4 : b.voc = c.voc := by rw [← hb]
  have b5 : b.isc = c.isc := by rw [← hb]
  have b6 : b.vmp = c.vmp := by rw [← hb]
  have b7 : b.area = c.area := by rw [← hb]
  have b8 : b.flux = c.flux := by rw [← hb]
  unfold Cell.deriveAt at he
  split_ifs at he with h1 h2
  push Not at h1
  split at he
  · cases he
  · cases he
  · rename_i w hw
    unfold Cell.deriveFrom at he
    split_ifs at he with h3 h4 h5 h6 h7
    cases he
    refine ⟨w, b.nVt / b.imp * (w - b.opD - b.opC), hw, by rw [b1, b2], ?_, ?_, ?_, not_le.1 h3, h4, b1, b4, b5, b6, b2, rfl, rfl,
      not_le.1 h5, ?_, not_le.1 h7, ?_, ?_, b7, b8⟩
    · rw [← b1]; exact h1.1
    · rw [← b2]; exact h1.2.1
    · rw [← b3]; exact h1.2.2
    · simp only [Cell.saturation, b4, b5]
    · simp only [b5]
    · rw [abs_le, ← b4]; exact h6

private theorem kOverQ_pos : 0 < kOverQ := by unfold kOverQ; norm_num

/-- The derived circuit is proper; for the approximated circuit, which neglects the saturation current beside the photo current, the
open-circuit point is on the curve whatever W is. -/
theorem c76_derived (w1 : ℝ → Out) (c c' : Cell) (he : c.derive w1 = .val c') (h1 : 0 < c.ideality) (h2 : 0 < c.temp) :
    PvProper c' ∧ c'.voc = c.voc ∧ c'.isc = c.isc ∧ c'.vmp = c.vmp ∧ c'.imp = c.imp ∧ pvBalance c' 0 c'.voc 0 = 0 ∧
      c'.il - (c'.isc * c'.rs) / c'.rsh - c'.isc = 0 := by
  obtain ⟨w, rs, _, _, _, _, _, h3, _, h5, h6, h7, h8, h9, h10, _, h11, h12, h13, h14, _⟩ := derive_val he
  have hn : 0 < c'.nVt := by rw [h5]; have := kOverQ_pos; positivity
  refine ⟨⟨by rw [h10]; exact h3, h11, hn, h13⟩, h6, h7, h8, h9, ?_, ?_⟩
  · unfold pvBalance
    rw [h14, h12, h6]
    have := (exp_pos (c.voc / c'.nVt)).ne'
    have e : c.voc + 0 * c'.rs = c.voc := by ring
    rw [e]
    field_simp
    ring
  · rw [h14, h7]; field_simp; ring

/-- With an exact W on the other branch the maximum power point of the data is on the approximated curve, and the slope of the
curve there is that of constant power. -/
theorem c76_mpp (w1 : ℝ → Out) (hw1 : ExactW1 w1) (c c' : Cell) (he : c.derive w1 = .val c') (h1 : 0 < c.ideality) (h2 : 0 < c.temp)
    (_h3 : 0 < c.imp) :
    pvBalance c' 0 c'.vmp c'.imp = 0 ∧
      (c'.vmp - c'.imp * c'.rs) * (c'.i0 * exp ((c'.vmp + c'.imp * c'.rs) / c'.nVt) / c'.nVt + 1 / c'.rsh) = c'.imp := by
  obtain ⟨w, rs, g1, g2, g3, g4, g5, g6, g7, g8, g9, g10, g11, g12, g13, g14, g15, g16, g17, g18, _⟩ := derive_val he
  obtain ⟨_, hz⟩ := hw1 _ _ g1
  have hn : 0 < c'.nVt := by rw [g8]; have := kOverQ_pos; positivity
  rw [← g8] at g1 g2 g3 g7 g14 hz
  obtain ⟨n, hnn⟩ : ∃ n, n = c'.nVt := ⟨_, rfl⟩
  obtain ⟨R, hR⟩ : ∃ R, R = c'.rsh + rs := ⟨_, rfl⟩
  rw [g13] at g16 g18
  rw [← hnn] at hn g1 g2 g3 g7 g14 g16 hz
  rw [g11, g12, g13, ← hnn]
  -- the operand of W
  have hnotn : n ≠ 0 := hn.ne'
  unfold Cell.opB Cell.opC at hz
  unfold Cell.opC Cell.opD at g2
  unfold Cell.denSh at g7
  unfold Cell.shunt Cell.denSh at g14
  unfold Cell.den at g5
  simp only [Cell.den] at hz g2
  simp only at g7 g14
  obtain ⟨S, hS⟩ : ∃ S, S = c.vmp * c.isc + c.voc * (c.imp - c.isc) := ⟨_, rfl⟩
  rw [← hS] at hz g2 g5
  have hwv : w * (n * S) = -(c.vmp - c.imp * rs) * S + n * (c.vmp * c.isc - c.voc * c.imp) := by
    rw [g2]; field_simp; ring
  -- X = exp ((vmp + imp rs - voc) / n)
  obtain ⟨X, hX⟩ : ∃ X, X = exp ((c.vmp + c.imp * rs) / n - c.voc / n) := ⟨_, rfl⟩
  have hwX : w * X * S = -c.vmp * (2 * c.imp - c.isc) := by
    obtain ⟨C, hC⟩ : ∃ C, C = -(2 * c.vmp - c.voc) / n + (c.vmp * c.isc - c.voc * c.imp) / S := ⟨_, rfl⟩
    rw [← hC] at hz g2
    have e1 : (c.vmp + c.imp * rs) / n - c.voc / n = w - C := by
      have : c.imp * rs = n * (w - (c.vmp - c.voc) / n - C) := by rw [g2]; field_simp
      rw [this]; field_simp; ring
    have e2 : X = exp w / exp C := by rw [hX, e1, exp_sub]
    rw [e2]
    have hC0 := (exp_pos C).ne'
    have : w * (exp w / exp C) * S = w * exp w / exp C * S := by ring
    rw [this, hz]
    field_simp
  obtain ⟨a, ha⟩ : ∃ a, a = c.vmp - c.imp * rs := ⟨_, rfl⟩
  obtain ⟨d, hd⟩ : ∃ d, d = a * (c.isc - c.imp) - n * c.imp := ⟨_, rfl⟩
  rw [← ha] at g7 g14 hwv
  rw [← hd] at g7 g14
  have hRd : R * d = c.vmp * (a - n) := by
    have : c'.rsh * d = a * (c.vmp - rs * (c.isc - c.imp) - n) := by rw [g14]; field_simp
    rw [hR, add_mul, this, hd, ha]; ring
  have hQd : (R * c.isc - c.voc) * d = -(w * (n * S)) := by
    rw [hwv, hS]
    have : (R * c.isc - c.voc) * d = R * d * c.isc - c.voc * d := by ring
    rw [this, hRd, hd]; ring
  have hQX : (R * c.isc - c.voc) * X = R * (c.isc - c.imp) - c.vmp := by
    apply mul_right_cancel₀ g7
    have e1 : (R * c.isc - c.voc) * X * d = -(w * X * S) * n := by
      have : (R * c.isc - c.voc) * X * d = (R * c.isc - c.voc) * d * X := by ring
      rw [this, hQd]; ring
    have e2 : (R * (c.isc - c.imp) - c.vmp) * d = R * d * (c.isc - c.imp) - c.vmp * d := by ring
    rw [e1, hwX, e2, hRd, hd]; ring
  have hI : c'.i0 * exp ((c.vmp + c.imp * rs) / n) = (R * (c.isc - c.imp) - c.vmp) / c'.rsh := by
    rw [g16, ← hQX, hX, exp_sub, ← hR]
    have := (exp_pos (c.voc / n)).ne'
    field_simp
  constructor
  · unfold pvBalance
    rw [g13, g18, ← hnn, hI, ← hR]
    have e : c'.rsh = R - rs := by rw [hR]; ring
    have hne : R - rs ≠ 0 := by rw [← e]; exact g15.ne'
    rw [e]
    field_simp
    ring
  · rw [hI, ← ha]
    have hrs : c'.rsh * d = a * (c.vmp - rs * (c.isc - c.imp) - n) := by rw [g14]; field_simp
    have key : a * (R * (c.isc - c.imp) - c.vmp + n) = n * (c.imp * c'.rsh) := by
      apply mul_right_cancel₀ g7
      have e1 : a * (R * (c.isc - c.imp) - c.vmp + n) * d = a * (R * d * (c.isc - c.imp) - c.vmp * d + n * d) := by ring
      have e2 : n * (c.imp * c'.rsh) * d = n * c.imp * (c'.rsh * d) := by ring
      rw [e1, e2, hRd, hrs, hd, ha]; ring
    have hne := g15.ne'
    field_simp
    linarith

/-- A tangent plane of the balance lies above it. -/
private theorem balance_concave {c : Cell} (h : PvProper c) (s v i v0 i0 : ℝ) :
    pvBalance c s v i ≤ pvBalance c s v0 i0 -
      (c.i0 * exp ((v0 + i0 * c.rs) / c.nVt) / c.nVt + 1 / c.rsh) * (v - v0 + c.rs * (i - i0)) - (i - i0) := by
  obtain ⟨h1, h2, h3, h4⟩ := h
  unfold pvBalance
  obtain ⟨y, hy⟩ : ∃ y, y = (v - v0 + c.rs * (i - i0)) := ⟨_, rfl⟩
  have e1 : (v + i * c.rs) / c.nVt = (v0 + i0 * c.rs) / c.nVt + y / c.nVt := by rw [hy]; field_simp; ring
  have e2 : (v + i * c.rs) / c.rsh = (v0 + i0 * c.rs) / c.rsh + 1 / c.rsh * y := by rw [hy]; field_simp; ring
  rw [e1, exp_add, e2, ← hy]
  obtain ⟨E, hE⟩ : ∃ E, E = exp ((v0 + i0 * c.rs) / c.nVt) := ⟨_, rfl⟩
  rw [← hE]
  have hE0 : 0 < E := by rw [hE]; exact exp_pos _
  have h5 := add_one_le_exp (y / c.nVt)
  have h6 : c.i0 * (E * (y / c.nVt + 1)) ≤ c.i0 * (E * exp (y / c.nVt)) := by gcongr
  have e3 : c.i0 * (E * (y / c.nVt + 1)) = c.i0 * E / c.nVt * y + c.i0 * E := by ring
  rw [e3] at h6
  linarith

private theorem power_bound {lam mu V I Vm Im e : ℝ} (hmu : 1 ≤ mu) (hV : 0 ≤ V) (hI : 0 ≤ I) (hVm : 0 < Vm) (hIm : 0 < Im)
    (he : 0 ≤ e) (hb : lam * Vm = mu * Im) (h : lam * V + mu * I ≤ 2 * (mu * Im) + e) :
    V * I ≤ Vm / Im * (Im + e / 2) ^ 2 := by
  have hlam : lam = mu * Im / Vm := by rw [← hb]; field_simp
  have hlp : 0 < lam := by rw [hlam]; positivity
  have h1 : 4 * (lam * V * (mu * I)) ≤ (2 * (mu * Im) + e) ^ 2 := by
    have h2 : (lam * V + mu * I) ^ 2 ≤ (2 * (mu * Im) + e) ^ 2 := pow_le_pow_left₀ (by positivity) h 2
    nlinarith [sq_nonneg (lam * V - mu * I)]
  have h3 : (2 * (mu * Im) + e) ^ 2 ≤ (mu * (2 * Im + e)) ^ 2 := by
    apply pow_le_pow_left₀ (by positivity)
    nlinarith
  have h4 : 4 * (lam * V * (mu * I)) ≤ mu ^ 2 * (2 * Im + e) ^ 2 := by rw [← mul_pow]; linarith
  have h5 : 4 * (lam * V * (mu * I)) = mu ^ 2 * (4 * (Im / Vm) * (V * I)) := by rw [hlam]; ring
  rw [h5] at h4
  have h6 : 4 * (Im / Vm) * (V * I) ≤ (2 * Im + e) ^ 2 := le_of_mul_le_mul_left h4 (by positivity)
  have h7 : V * I = Vm / Im * (Im / Vm * (V * I)) := by field_simp
  rw [h7]
  apply mul_le_mul_of_nonneg_left _ (by positivity)
  nlinarith

/-- With exact Ws no point of the approximated curve gives more power than the maximum power point of the data, and no point of the
computed curve more than it by the saturation current's share. -/
theorem c76_power (w1 : ℝ → Out) (hw1 : ExactW1 w1) (c c' : Cell) (he : c.derive w1 = .val c') (h1 : 0 < c.ideality) (h2 : 0 < c.temp)
    (h3 : 0 < c.imp) (h4 : 0 < c.vmp) (v i : ℝ) (hv : 0 ≤ v) (hi : 0 ≤ i) :
    (pvBalance c' 0 v i = 0 → v * i ≤ c'.vmp * c'.imp) ∧
      (pvCircuit c' v i = 0 → v * i ≤ c'.vmp / c'.imp * (c'.imp + c'.i0 / 2) ^ 2) := by
  obtain ⟨hp, _, _, g1, g2, _⟩ := c76_derived w1 c c' he h1 h2
  obtain ⟨m1, m2⟩ := c76_mpp w1 hw1 c c' he h1 h2 h3
  have hp' := hp
  obtain ⟨p1, p2, p3, p4⟩ := hp
  obtain ⟨G, hG⟩ : ∃ G, G = c'.i0 * exp ((c'.vmp + c'.imp * c'.rs) / c'.nVt) / c'.nVt + 1 / c'.rsh := ⟨_, rfl⟩
  rw [← hG] at m2
  have hG0 : 0 < G := by rw [hG]; positivity
  have hb : G * c'.vmp = (1 + G * c'.rs) * c'.imp := by linarith
  have hmu : 1 ≤ 1 + G * c'.rs := by nlinarith
  have hvm : 0 < c'.vmp := by rw [g1]; exact h4
  have him : 0 < c'.imp := by rw [g2]; exact h3
  have conc := balance_concave hp' 0 v i c'.vmp c'.imp
  rw [← hG, m1] at conc
  constructor
  · intro h
    rw [h] at conc
    have := power_bound (lam := G) (mu := 1 + G * c'.rs) (e := 0) hmu hv hi hvm him le_rfl hb (by linarith)
    refine this.trans (le_of_eq ?_)
    field_simp
    ring
  · intro h
    have e : pvBalance c' 0 v i = -c'.i0 := by
      unfold pvCircuit pvBalance at h; unfold pvBalance; linarith
    rw [e] at conc
    exact power_bound (lam := G) (mu := 1 + G * c'.rs) (e := c'.i0) hmu hv hi hvm him p4.le hb (by linarith)

/-- Where the computed curve passes: between zero and the short-circuit current on all of the range, at the open-circuit voltage
within the saturation current of zero, and at the voltage of maximum power within it above the current of maximum power. -/
theorem c76_ends (w1 : ℝ → Out) (hw1 : ExactW1 w1) (c c' : Cell) (he : c.derive w1 = .val c') (h1 : 0 < c.ideality) (h2 : 0 < c.temp)
    (h3 : 0 < c.imp) (h4 : 0 < c.isc) :
    (∀ v i, 0 ≤ v → v ≤ c'.voc → pvCircuit c' v i = 0 → 0 < i ∧ i < c'.isc) ∧
      (∀ i, pvCircuit c' c'.voc i = 0 → 0 < i ∧ i < c'.i0) ∧
      (∀ i, pvCircuit c' c'.vmp i = 0 → c'.imp < i ∧ i < c'.imp + c'.i0) := by
  obtain ⟨hp, g0, g1, g2, g3, g4, g5⟩ := c76_derived w1 c c' he h1 h2
  obtain ⟨m1, m2⟩ := c76_mpp w1 hw1 c c' he h1 h2 h3
  have hp' := hp
  obtain ⟨p1, p2, p3, p4⟩ := hp
  -- a balance of zero without the saturation current is i0 with it, and one step of i0 in the current makes it negative
  have key : ∀ v j, pvBalance c' 0 v j = 0 → ∀ i, pvCircuit c' v i = 0 → j < i ∧ i < j + c'.i0 := by
    intro v j hj i hi
    have e : pvCircuit c' v j = c'.i0 := by
      unfold pvCircuit pvBalance; unfold pvBalance at hj; linarith
    constructor
    · by_contra hc; push Not at hc
      rcases hc.lt_or_eq with h | h
      · have := balance_strictAnti (s := c'.i0) hp' (le_refl v) h.le (Or.inr h)
        unfold pvCircuit at e hi; linarith
      · rw [h, e] at hi; linarith
    · by_contra hc; push Not at hc
      have h6 : pvCircuit c' v (j + c'.i0) < 0 := by
        have hm : c'.i0 * exp ((v + j * c'.rs) / c'.nVt) < c'.i0 * exp ((v + (j + c'.i0) * c'.rs) / c'.nVt) := by
          apply mul_lt_mul_of_pos_left _ p4
          apply exp_lt_exp.2
          apply div_lt_div_of_pos_right _ p3
          nlinarith
        have hs : (v + j * c'.rs) / c'.rsh < (v + (j + c'.i0) * c'.rs) / c'.rsh := by
          apply div_lt_div_of_pos_right _ p2
          nlinarith
        unfold pvCircuit pvBalance at e ⊢
        linarith
      rcases hc.lt_or_eq with h | h
      · have := balance_strictAnti (s := c'.i0) hp' (le_refl v) h.le (Or.inr h)
        unfold pvCircuit at h6 hi; linarith
      · rw [← h, ] at hi; linarith
  refine ⟨fun v i hv0 hv1 hi => ?_, fun i hi => ?_, fun i hi => key _ _ m1 i hi⟩
  · constructor
    · by_contra hc; push Not at hc
      -- the balance at (v, i) with i ≤ 0, v ≤ voc is at least that at (voc, 0), which is i0
      have e : pvCircuit c' c'.voc 0 = c'.i0 := by
        unfold pvCircuit pvBalance; unfold pvBalance at g4; linarith
      by_cases hq : v < c'.voc ∨ i < 0
      · have := balance_strictAnti (s := c'.i0) hp' hv1 hc hq
        unfold pvCircuit at e hi; linarith
      · push Not at hq
        have : v = c'.voc := le_antisymm hv1 hq.1
        have : i = 0 := le_antisymm hc hq.2
        subst i; subst v
        linarith
    · by_contra hc; push Not at hc
      have e : pvCircuit c' 0 c'.isc < 0 := by
        unfold pvCircuit pvBalance
        have hx : 0 < (0 + c'.isc * c'.rs) / c'.nVt := by
          have : 0 < c'.isc := by rw [g1]; exact h4
          rw [zero_add]; positivity
        have hx2 : 1 < exp ((0 + c'.isc * c'.rs) / c'.nVt) := one_lt_exp_iff.2 hx
        have : c'.i0 * 1 < c'.i0 * exp ((0 + c'.isc * c'.rs) / c'.nVt) := mul_lt_mul_of_pos_left hx2 p4
        rw [zero_add] at this ⊢
        linarith
      by_cases hq : 0 < v ∨ c'.isc < i
      · have := balance_strictAnti (s := c'.i0) hp' hv0 hc hq
        unfold pvCircuit at e hi; linarith
      · push Not at hq
        have h6 : v = 0 := le_antisymm hq.1 hv0
        have h7 : i = c'.isc := le_antisymm hq.2 hc
        rw [h6, h7] at hi
        linarith
  · have := key _ _ g4 i hi
    exact ⟨this.1, by linarith [this.2]⟩

/-! ## Light and temperature -/

/-- At the reference temperature the current is that of the reference cell times the ratio of the light, at all voltages and
whatever is used for W. -/
theorem c76_light (w0 w1 : ℝ → Out) (ref : Cell) (flux deg v i : ℝ) (hr : dblEps < flux * (1 - deg) / ref.flux)
    (hp : PvProper ref) (hi : ref.current w0 v = .val i) :
    ∃ c, Cell.update w1 ref ref.temp flux deg = .val c ∧ c.current w0 v = .val (flux * (1 - deg) / ref.flux * i) ∧
      c.voc = ref.voc ∧ c.isc = flux * (1 - deg) / ref.flux * ref.isc := by
  obtain ⟨q, hq⟩ : ∃ q, q = flux * (1 - deg) / ref.flux := ⟨_, rfl⟩
  rw [← hq] at hr ⊢
  have hq0 : 0 < q := lt_trans dblEps_pos hr
  obtain ⟨p1, p2, p3, p4⟩ := hp
  have hupd : Cell.update w1 ref ref.temp flux deg = .val (Cell.efficiency { ref with
      flux := flux
      isc := ref.isc * q
      imp := ref.imp * q
      rs := ref.rs / q
      rsh := ref.rsh / q
      i0 := ref.i0 * q
      il := ref.il * q }) := by
    unfold Cell.update
    simp only
    rw [← hq, if_pos hr, if_pos trivial]
  refine ⟨_, hupd, ?_, rfl, by simp only [Cell.efficiency]; ring⟩
  unfold Cell.current at hi ⊢
  by_cases h1 : v ≤ dblEps
  · rw [if_pos h1] at hi ⊢
    cases hi
    simp only [Cell.efficiency]
    rw [mul_comm]
  rw [if_neg h1] at hi ⊢
  by_cases h2 : v < ref.voc
  · rw [if_pos h2] at hi
    rw [if_pos (by exact h2)]
    rw [if_neg (by rintro (h | h | h | h) <;> linarith)] at hi
    have hz : ∀ b : Cell, b.rs = ref.rs / q → b.rsh = ref.rsh / q → b.i0 = ref.i0 * q → b.il = ref.il * q → b.nVt = ref.nVt →
        b.zexpI v = ref.zexpI v ∧ b.zI v = ref.zI v ∧ ∀ w, b.currentOf v w = q * ref.currentOf v w := by
      intro b e1 e2 e3 e4 e5
      have e6 : b.zexpI v = ref.zexpI v := by
        unfold Cell.zexpI; rw [e1, e2, e3, e4, e5]; field_simp
      refine ⟨e6, ?_, ?_⟩
      · unfold Cell.zI; rw [e6, e1, e2, e3, e5]; field_simp
      · intro w; unfold Cell.currentOf; rw [e1, e2, e3, e4, e5]; field_simp
    obtain ⟨a1, a2, a3⟩ := hz (Cell.efficiency { ref with
      flux := flux
      isc := ref.isc * q
      imp := ref.imp * q
      rs := ref.rs / q
      rsh := ref.rsh / q
      i0 := ref.i0 * q
      il := ref.il * q }) rfl rfl rfl rfl rfl
    have n1 : (0 : ℝ) < ref.rs / q := by positivity
    have n2 : (0 : ℝ) < ref.rsh / q := by positivity
    rw [if_neg (by
      simp only [Cell.efficiency]
      rintro (h | h | h | h) <;> linarith), a1, a2]
    split_ifs at hi ⊢ with h3
    split at hi
    · cases hi
    · cases hi
    · rename_i w hw
      cases hi
      rw [a3]
  · rw [if_neg h2] at hi
    rw [if_neg (by exact h2)]
    cases hi
    rw [mul_zero]

/-- At another temperature the open-circuit voltage and the short-circuit current shift by their coefficients, and the fill factor is
that of the reference. -/
theorem c76_temperature (w1 : ℝ → Out) (ref c : Cell) (t flux deg : ℝ) (ht : t ≠ ref.temp)
    (hr : dblEps < flux * (1 - deg) / ref.flux) (h1 : 0 < ref.voc) (h2 : 0 < ref.isc)
    (hv : dblEps < ref.voc + (t - ref.temp) * ref.dVoc)
    (hi : dblEps < ref.isc * (flux * (1 - deg) / ref.flux) + (t - ref.temp) * ref.dIsc)
    (he : Cell.update w1 ref t flux deg = .val c) :
    c.voc = ref.voc + (t - ref.temp) * ref.dVoc ∧
      c.isc = ref.isc * (flux * (1 - deg) / ref.flux) + (t - ref.temp) * ref.dIsc ∧
      c.fill = ref.vmp * ref.imp / (ref.voc * ref.isc) ∧ c.fill * (c.voc * c.isc) = c.vmp * c.imp ∧
      (0 < c.area → 0 < flux → c.eff * (c.area * flux) = c.vmp * c.imp) := by
  obtain ⟨q, hq⟩ : ∃ q, q = flux * (1 - deg) / ref.flux := ⟨_, rfl⟩
  rw [← hq] at hr hi ⊢
  have hq0 : 0 < q := lt_trans dblEps_pos hr
  have he0 : (0 : ℝ) < dblEps := dblEps_pos
  unfold Cell.update at he
  simp only at he
  rw [← hq, if_pos hr, if_neg ht, if_pos ⟨hv, hi⟩] at he
  split at he
  · cases he
  · cases he
  · rename_i c2 hc2
    cases he
    obtain ⟨w, rs, _, _, _, _, _, _, _, _, g9, g10, g11, g12, _, _, _, _, _, _, _, g19, g20⟩ := derive_val hc2
    simp only [Cell.warmed] at g9 g10 g11 g12 g20
    have hv0 : 0 < ref.voc + (t - ref.temp) * ref.dVoc := by linarith
    have hi0 : 0 < ref.isc * q + (t - ref.temp) * ref.dIsc := by linarith
    have hfill : c2.efficiency.fill = c2.vmp * c2.imp / (c2.voc * c2.isc) := by
      unfold Cell.efficiency
      simp only
      rw [if_pos ⟨by rw [g9]; exact hv0, by rw [g10]; exact hi0⟩]
    have e1 : c2.efficiency.voc = c2.voc := rfl
    have e2 : c2.efficiency.isc = c2.isc := rfl
    have e3 : c2.efficiency.vmp = c2.vmp := rfl
    have e4 : c2.efficiency.imp = c2.imp := rfl
    have e5 : c2.efficiency.area = c2.area := rfl
    refine ⟨by rw [e1, g9], by rw [e2, g10], ?_, ?_, ?_⟩
    · rw [hfill, g9, g10, g11, g12]
      generalize ref.voc + (t - ref.temp) * ref.dVoc = V at *
      generalize ref.isc * q + (t - ref.temp) * ref.dIsc = I at *
      field_simp
    · rw [hfill, e1, e2, e3, e4]
      have h5 : c2.voc ≠ 0 := by rw [g9]; exact hv0.ne'
      have h6 : c2.isc ≠ 0 := by rw [g10]; exact hi0.ne'
      field_simp
    · intro ha hf
      rw [e5] at ha
      have : c2.efficiency.eff = c2.vmp * c2.imp / (c2.area * c2.flux) := by
        unfold Cell.efficiency
        simp only
        rw [if_pos ⟨ha, by rw [g20]; exact hf⟩]
      rw [this, e3, e4, e5, g20]
      field_simp

/-- A cell in the dark, or fully degraded, gives no current at any voltage and no voltage at any current. -/
theorem c76_dark (w0 w1 : ℝ → Out) (ref : Cell) (t flux deg x : ℝ) (h : flux * (1 - deg) / ref.flux ≤ dblEps) :
    ∃ c, Cell.update w1 ref t flux deg = .val c ∧ c.current w0 x = .val 0 ∧ c.voltage w0 x = .val 0 := by
  refine ⟨Cell.dark.efficiency, ?_, ?_, ?_⟩
  · unfold Cell.update
    simp only
    rw [if_neg (not_lt.2 h)]
  · unfold Cell.current
    by_cases h1 : x ≤ dblEps
    · rw [if_pos h1]; rfl
    · rw [if_neg h1, if_neg]
      have : (0 : ℝ) < dblEps := dblEps_pos
      simp only [Cell.efficiency, Cell.dark]
      linarith
  · unfold Cell.voltage
    by_cases h1 : x ≤ dblEps
    · rw [if_pos h1]; rfl
    · rw [if_neg h1, if_neg]
      have : (0 : ℝ) < dblEps := dblEps_pos
      simp only [Cell.efficiency, Cell.dark]
      linarith

/-! ## Failures -/

/-- The shift of the short-circuit current with temperature takes no account of the light: every lit cell with a positive
coefficient is dead when it is colder than the reference by the current over the coefficient times the ratio of the light. -/
theorem c76_cold_dim_dead (w1 : ℝ → Out) (ref : Cell) (flux : ℝ) (hc : 0 < ref.dIsc) (hr : dblEps < flux / ref.flux)
    (hi : 0 < ref.isc) :
    Cell.update w1 ref (ref.temp - flux / ref.flux * (ref.isc / ref.dIsc)) flux 0 = .val Cell.dark.efficiency := by
  obtain ⟨q, hq⟩ : ∃ q, q = flux / ref.flux := ⟨_, rfl⟩
  have he0 : (0 : ℝ) < dblEps := dblEps_pos
  have hq0 : 0 < q := by rw [hq]; linarith
  unfold Cell.update
  simp only
  rw [sub_zero, mul_one, ← hq, if_pos (by rw [hq]; exact hr), if_neg, if_neg]
  · simp only [Cell.warmed]
    have : ref.temp - q * (ref.isc / ref.dIsc) - ref.temp = -(q * (ref.isc / ref.dIsc)) := by ring
    rw [this]
    have e : ref.isc * q + -(q * (ref.isc / ref.dIsc)) * ref.dIsc = 0 := by field_simp; ring
    rw [e]
    intro h
    linarith [h.2]
  · intro h
    have : 0 < q * (ref.isc / ref.dIsc) := by positivity
    linarith

/-- And a hot cell keeps the shift however dim the light is: its short-circuit current stays above it. -/
theorem c76_hot_dim_current (w1 : ℝ → Out) (ref c : Cell) (t flux : ℝ) (ht : ref.temp < t) (hr : dblEps < flux / ref.flux)
    (h1 : 0 < ref.voc) (h2 : 0 < ref.isc) (hv : dblEps < ref.voc + (t - ref.temp) * ref.dVoc)
    (hc : dblEps < (t - ref.temp) * ref.dIsc) (he : Cell.update w1 ref t flux 0 = .val c) :
    (t - ref.temp) * ref.dIsc < c.isc := by
  have he0 : (0 : ℝ) < dblEps := dblEps_pos
  have hq : flux * (1 - 0) / ref.flux = flux / ref.flux := by ring
  have hpos : 0 < ref.isc * (flux / ref.flux) := by
    have : 0 < flux / ref.flux := by linarith
    positivity
  obtain ⟨_, h3, _⟩ := c76_temperature w1 ref c t flux 0 ht.ne' (by rw [hq]; exact hr) h1 h2 hv (by rw [hq]; linarith) he
  rw [h3, hq]
  linarith

/-- Cold cells end the run: below a temperature in proportion to the open-circuit voltage, no parameters are returned. -/
theorem c76_cold_throws (w1 : ℝ → Out) (ref c : Cell) (t flux deg : ℝ) (ht : t ≠ ref.temp) (h0 : 0 < t) (hid : 0 < ref.ideality)
    (hr : dblEps < flux * (1 - deg) / ref.flux)
    (hi : dblEps < ref.isc * (flux * (1 - deg) / ref.flux) + (t - ref.temp) * ref.dIsc)
    (hv : 500 * (ref.ideality * kOverQ * t) < ref.voc + (t - ref.temp) * ref.dVoc)
    (hv0 : dblEps < ref.voc + (t - ref.temp) * ref.dVoc) : Cell.update w1 ref t flux deg ≠ .val c := by
  intro he
  unfold Cell.update at he
  simp only at he
  rw [if_pos hr, if_neg ht, if_pos ⟨hv0, hi⟩] at he
  split at he
  · cases he
  · cases he
  · rename_i c2 hc2
    obtain ⟨w, rs, _, _, _, _, _, _, _, g8, _, _, _, _, _, _, _, _, _, _, g19, _⟩ := derive_val hc2
    rw [g8] at g19
    simp only [Cell.warmed] at g19
    have hn : 0 < ref.ideality * kOverQ * t := by have := kOverQ_pos; positivity
    have h5 := (abs_le.1 g19).2
    rw [div_le_iff₀ hn] at h5
    linarith

/-- A proper cell: with all elements one, a saturation current of 0.01 and a photo current of 0.39. -/
private noncomputable def unitCell : Cell where
  il := 0.39
  rsh := 1
  rs := 1
  nVt := 1
  i0 := 0.01
  fill := 0
  eff := 0
  voc := 2
  isc := 0.8
  vmp := 0
  imp := 0
  flux := 1
  ideality := 1
  temp := 300
  dVoc := 0
  dIsc := 0.001
  area := 0

private theorem unit_zexp (v : ℝ) : unitCell.zexpI v = v / 2 + 0.2 := by
  unfold Cell.zexpI unitCell; norm_num; ring

private theorem unit_z (v : ℝ) : unitCell.zI v = 0.005 * exp (v / 2 + 0.2) := by
  have h := unit_zexp v
  unfold Cell.zI
  rw [h]
  simp only [unitCell]
  norm_num

private theorem unit_current (v w : ℝ) : unitCell.currentOf v w = 0.2 - v / 2 - w := by
  unfold Cell.currentOf unitCell; norm_num; ring

private theorem unit_proper : PvProper unitCell := by
  constructor <;> simp only [unitCell] <;> norm_num

/-- With the fits the current is not monotone: there is a proper cell whose computed current rises with the voltage. -/
theorem c76_not_monotone : ∃ c u v i j, PvProper c ∧ dblEps < u ∧ u < v ∧ v < c.voc ∧ c.currentFast u = .val i ∧
    c.currentFast v = .val j ∧ i < j := by
  have h2l := log_two_gt_d9
  have h2u := log_two_lt_d9
  have he : (dblEps : ℝ) < 1 / 2 := by unfold dblEps; norm_num
  have hlog : -(2 / 10 ^ 6) < log 0.999999 := by
    have := one_sub_inv_le_log_of_pos (by norm_num : (0 : ℝ) < 0.999999)
    norm_num at this ⊢; linarith
  have hlog0 : log 0.999999 < 0 := log_neg (by norm_num) (by norm_num)
  obtain ⟨v, hv⟩ : ∃ v, v = 2 * (log 2 - 0.2) := ⟨_, rfl⟩
  obtain ⟨u, hu⟩ : ∃ u, u = 2 * (log 2 + log 0.999999 - 0.2) := ⟨_, rfl⟩
  have hzv : unitCell.zI v = 1 / 100 := by
    rw [unit_z, hv]
    have : 2 * (log 2 - 0.2) / 2 + 0.2 = log 2 := by ring
    rw [this, exp_log (by norm_num)]; norm_num
  have hzu : unitCell.zI u = 0.00999999 := by
    rw [unit_z, hu]
    have : 2 * (log 2 + log 0.999999 - 0.2) / 2 + 0.2 = log 2 + log 0.999999 := by ring
    rw [this, exp_add, exp_log (by norm_num), exp_log (by norm_num)]; norm_num
  have hb : -(1 / exp 1) < (0 : ℝ) := by rw [neg_lt_zero]; positivity
  have hm : (1 : ℝ) ≤ maxInput0 := one_le_pow₀ (by norm_num)
  have fu : fastW0 0.00999999 = .val 0.00999999 := by
    unfold fastW0
    rw [if_neg (by norm_num; linarith), if_neg (by have : (0 : ℝ) < 0.00999999 := by norm_num
                                                   linarith), if_neg (by norm_num), if_pos (by norm_num)]
  obtain ⟨L, hL⟩ : ∃ L : ℝ, L = log (1 / 100) := ⟨_, rfl⟩
  obtain ⟨z, hz⟩ : ∃ z, z = exp ((4.123e-6 * L + 2) * L + 1.64e-4) := ⟨_, rfl⟩
  have fv : fastW0 (1 / 100) = .val (1 / 100 - z) := by
    unfold fastW0
    rw [if_neg (by linarith), if_neg (by linarith), if_neg (by norm_num), if_neg (by norm_num)]
    simp only
    rw [if_pos (by norm_num), ← hL, ← hz]
  have hz1 : 1 / 10000 ≤ z := by
    have e : (1 / 100 : ℝ) ^ 2 = exp (L + L) := by rw [exp_add, hL, exp_log (by norm_num)]; ring
    have h2 : exp (L + L) ≤ z := by
      rw [hz]
      apply exp_le_exp.2
      norm_num
      nlinarith [sq_nonneg L]
    rw [← e] at h2
    norm_num at h2 ⊢; linarith
  norm_num at h2l h2u hlog
  have hu0 : 1 / 2 < u := by rw [hu]; norm_num; linarith
  have huv : u < v := by rw [hu, hv]; linarith
  have hv2 : v < 2 := by rw [hv]; norm_num; linarith
  refine ⟨unitCell, u, v, _, _, unit_proper, by linarith, huv, hv2,
    current_eq unit_proper (by linarith) (by exact huv.trans hv2) (by rw [unit_zexp]; constructor <;> norm_num <;> linarith) (by rw [hzu]; exact fu),
    current_eq unit_proper (by linarith) hv2 (by rw [unit_zexp]; constructor <;> norm_num <;> linarith) (by rw [hzv]; exact fv), ?_⟩
  rw [unit_current, unit_current, hu, hv]
  norm_num
  linarith

/-- The hypotheses can be met: the cell above is proper, its operand at zero is small, and in a tenth of the light and 80 K colder it
is dead. -/
example : PvProper unitCell ∧ unitCell.zI 0 < 1 / 10 ∧
    Cell.update fastW1 unitCell (300 - 0.1 * 800) 0.1 0 = .val Cell.dark.efficiency := by
  refine ⟨unit_proper, ?_, ?_⟩
  · rw [unit_z]
    have h : exp (0 / 2 + 0.2) ≤ exp 1 := exp_le_exp.2 (by norm_num)
    have h1 : exp (0 / 2 + 0.2) < 3 := by linarith [exp_one_lt_d9]
    obtain ⟨y, hy⟩ : ∃ y : ℝ, y = exp (0 / 2 + 0.2) := ⟨_, rfl⟩
    rw [← hy] at h1 ⊢
    norm_num
    linarith
  · have := c76_cold_dim_dead fastW1 unitCell 0.1 (by simp only [unitCell]; norm_num)
      (by simp only [unitCell]; unfold dblEps; norm_num) (by simp only [unitCell]; norm_num)
    simp only [unitCell] at this ⊢
    norm_num at this ⊢
    exact this

/-- There is an exact W on the principal branch. -/
example : ∃ w0 : ℝ → Out, ExactW0 w0 := by
  have h : ∀ z : ℝ, ∃ w : ℝ, 0 < z → w * exp w = z := by
    intro z
    by_cases hz : 0 < z
    · have hc : ContinuousOn (fun w : ℝ => w * exp w) (Set.Icc 0 z) :=
        (continuous_id.mul continuous_exp).continuousOn
      obtain ⟨w, _, hw⟩ := intermediate_value_Icc hz.le hc (show z ∈ Set.Icc (0 * exp 0) (z * exp z) from
        ⟨by rw [zero_mul]; exact hz.le, by nlinarith [one_le_exp hz.le]⟩)
      exact ⟨w, fun _ => hw⟩
    · exact ⟨0, fun h => absurd h hz⟩
  choose f hf using h
  exact ⟨fun z => .val (f z), fun z hz => ⟨f z, rfl, hf z hz⟩⟩

/-- A cell with the thermal voltage of one volt, for which W is -58/7. -/
private noncomputable def sampleCell : Cell where
  il := 0
  rsh := 0
  rs := 0
  nVt := 0
  i0 := 0
  fill := 0
  eff := 0
  voc := 24 - 3 * log (29 / 3)
  isc := 5 / 4
  vmp := 16 - 2 * log (29 / 3)
  imp := 1
  flux := 1
  ideality := 1
  temp := 1 / kOverQ
  dVoc := 0
  dIsc := 0
  area := 1

/-- The hypotheses of the theorems on the derived parameters can be met. -/
example : ∃ w1 c', ExactW1 w1 ∧ sampleCell.derive w1 = .val c' ∧ 0 < sampleCell.imp ∧ 0 < sampleCell.vmp := by
  obtain ⟨l, hl⟩ : ∃ l, l = log (29 / 3) := ⟨_, rfl⟩
  have hl0 : 0 < l := by rw [hl]; exact log_pos (by norm_num)
  have hl4 : l < 3.6 := by
    have h := log_le_div_exp (by norm_num : (0 : ℝ) < 29 / 3)
    have h2 : 29 / 3 / exp 1 < 3.6 := by
      rw [div_lt_iff₀ (exp_pos 1)]; have := exp_one_gt_d9; norm_num at this ⊢; linarith
    rw [hl]; linarith
  norm_num at hl4
  have hexp : exp (-l) = 3 / 29 := by rw [exp_neg, hl, exp_log (by norm_num)]; norm_num
  have hk := kOverQ_pos
  refine ⟨fun z => if z = -58 / 7 * exp (-58 / 7) then .val (-58 / 7) else .thrown, ?_⟩
  have hE : ExactW1 (fun z => if z = -58 / 7 * exp (-58 / 7) then .val (-58 / 7) else .thrown) := by
    intro z w h
    simp only at h
    split_ifs at h with hz
    cases h
    exact ⟨by norm_num, hz.symm⟩
  have hv : 0 < 16 - 2 * l := by linarith
  have hS : (16 - 2 * l) * (5 / 4) + (24 - 3 * l) * (1 - 5 / 4) = 7 / 8 * (16 - 2 * l) := by ring
  have hB : -(16 - 2 * l) * (2 * 1 - 5 / 4) / (7 / 8 * (16 - 2 * l)) = -6 / 7 := by
    rw [div_eq_iff (by positivity)]; ring
  have hT : ((16 - 2 * l) * (5 / 4) - (24 - 3 * l) * 1) / (7 / 8 * (16 - 2 * l)) = -2 / 7 := by
    rw [div_eq_iff (by positivity)]; ring
  obtain ⟨b, hb⟩ : ∃ b : Cell, b = { sampleCell with nVt := 1 } := ⟨_, rfl⟩
  have hn : sampleCell.ideality * kOverQ * sampleCell.temp = 1 := by simp only [sampleCell]; field_simp
  have hd : ∀ w1, sampleCell.derive w1 = b.deriveAt w1 := by
    intro w1; unfold Cell.derive; rw [hn, hb]
  have bden : b.den = 7 / 8 * (16 - 2 * l) := by rw [hb]; simp only [Cell.den, sampleCell, ← hl]; exact hS
  have bB : b.opB = -6 / 7 := by unfold Cell.opB; rw [bden, hb]; simp only [sampleCell, ← hl]; exact hB
  have bC : b.opC = -8 + l - 2 / 7 := by
    unfold Cell.opC; rw [bden, hb]; simp only [sampleCell, ← hl]; rw [hT]; ring
  have bD : b.opD = -8 + l := by unfold Cell.opD; rw [hb]; simp only [sampleCell, ← hl]; ring
  have hz : b.opB * exp b.opC = -58 / 7 * exp (-58 / 7) := by
    rw [bB, bC]
    have : (-58 / 7 : ℝ) = (-8 + l - 2 / 7) + -l := by ring
    rw [this, exp_add, hexp]; ring
  have hrs : b.nVt / b.imp * (-58 / 7 - b.opD - b.opC) = 8 - 2 * l := by
    rw [bD, bC, hb]; simp only [sampleCell]; ring
  have hsh : b.denSh (8 - 2 * l) = 1 := by
    unfold Cell.denSh; rw [hb]; simp only [sampleCell, ← hl]; ring
  have hshunt : b.shunt (8 - 2 * l) = 8 * (13 - 3 / 2 * l) := by
    unfold Cell.shunt; rw [hsh, hb]; simp only [sampleCell, ← hl]; ring
  have hvoc : b.voc / b.nVt = 24 - 3 * l := by rw [hb]; simp only [sampleCell, ← hl]; ring
  have hsat : 0 < b.saturation (8 - 2 * l) (b.shunt (8 - 2 * l)) := by
    unfold Cell.saturation
    rw [hshunt, hb]
    simp only [sampleCell, ← hl]
    have : 0 < 13 - 3 / 2 * l := by linarith
    apply div_pos (by linarith) (by positivity)
  have hder : ∃ c', b.deriveFrom (8 - 2 * l) = .val c' := by
    unfold Cell.deriveFrom
    rw [if_neg (by linarith), if_neg (by rw [hsh]; norm_num), if_neg (by rw [hshunt]; linarith),
      if_neg (by rw [hvoc, not_not]; constructor <;> linarith), if_neg (not_le.2 hsat)]
    exact ⟨_, rfl⟩
  obtain ⟨c', hc'⟩ := hder
  refine ⟨c', hE, ?_, by simp only [sampleCell]; norm_num, by simp only [sampleCell, ← hl]; exact hv⟩
  rw [hd]
  unfold Cell.deriveAt
  rw [if_neg, if_neg]
  · simp only
    rw [if_pos hz]
    simp only
    rw [hrs, hc']
  · rw [bC, not_not]; constructor <;> linarith
  · rw [bden]
    push Not
    refine ⟨?_, ?_, by positivity⟩ <;> rw [hb] <;> simp [sampleCell]

end Gunns.Props
