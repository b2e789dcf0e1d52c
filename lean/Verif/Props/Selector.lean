import Verif.Elect.Selector
import Mathlib.Tactic.Linarith
import Mathlib.Tactic.Ring
import Mathlib.Tactic.Positivity
import Mathlib.Algebra.BigOperators.Intervals
import Mathlib.Algebra.BigOperators.Ring.Finset

/-!
# C96: the selector
-/

set_option linter.unusedSectionVars false

namespace Gunns.Props

open Gunns Gunns.Select

variable {K : Type*} [Field K] [LinearOrder K] [IsStrictOrderedRing K]

/-- One at port 0, minus one at the selected port, and zero elsewhere. -/
def c96Sign (p i : ℕ) : K := (if i = 0 then 1 else 0) - (if i = p then 1 else 0)

/-- The specification: the place of ports `i`, `j` in a matrix of one conductance `g` between ports 0 and `p`. -/
def c96Spec (p : ℕ) (g : K) (i j : ℕ) : K := g * c96Sign p i * c96Sign p j

/-- The matrix of the link is that of the specification. -/
def c96Is (l : Link K) (p : ℕ) (g : K) : Prop := ∀ i < l.n, ∀ j < l.n, l.mat (i * l.n + j) = c96Spec p g i j

/-- The connected port exists, and is the selected one if that is another than port 0. -/
theorem c96_port (l : Link K) (hn : 0 < l.n) :
    port l < l.n ∧ ((0 < l.sel ∧ l.sel < l.n) → (port l : ℤ) = l.sel) ∧ (¬ (0 < l.sel ∧ l.sel < l.n) → port l = 0) := by
  unfold port
  refine ⟨?_, ?_, ?_⟩
  · split
    · exact hn
    · omega
  · intro h
    rw [if_neg (by omega)]
    omega
  · intro h
    rw [if_pos (by omega)]

private theorem writes_spec (n p : ℕ) (g : K) (m : ℕ → K) (hp : 0 < p) (hpn : p < n)
    (hm : ∀ i < n, ∀ j < n, ¬ ((i = 0 ∨ i = p) ∧ (j = 0 ∨ j = p)) → m (i * n + j) = 0) (i j : ℕ) (hi : i < n) (hj : j < n) :
    writes n p g m (i * n + j) = c96Spec p g i j := by
  have hn : 0 < n := by omega
  have key : ∀ a b c d : ℕ, b < n → d < n → (a * n + b = c * n + d ↔ a = c ∧ b = d) := by
    intro a b c d hb hd
    constructor
    · intro h
      have h1 : (a * n + b) / n = (c * n + d) / n := by rw [h]
      have h2 : (a * n + b) % n = (c * n + d) % n := by rw [h]
      rw [Nat.mul_comm a, Nat.mul_comm c, Nat.mul_add_div hn, Nat.mul_add_div hn, Nat.div_eq_of_lt hb, Nat.div_eq_of_lt hd] at h1
      rw [Nat.mul_comm a, Nat.mul_comm c, Nat.mul_add_mod, Nat.mul_add_mod, Nat.mod_eq_of_lt hb, Nat.mod_eq_of_lt hd] at h2
      exact ⟨by omega, h2⟩
    · rintro ⟨rfl, rfl⟩; rfl
  have k1 : i * n + j = p * n + p ↔ i = p ∧ j = p := key i j p p hj hpn
  have k2 : i * n + j = p * n ↔ i = p ∧ j = 0 := by simpa using key i j p 0 hj hn
  have k3 : i * n + j = p ↔ i = 0 ∧ j = p := by simpa using key i j 0 p hj hpn
  have k4 : i * n + j = 0 ↔ i = 0 ∧ j = 0 := by simpa using key i j 0 0 hj hn
  have hne : (0 : ℕ) ≠ p := by omega
  unfold writes c96Spec c96Sign
  simp only [Function.update_apply, k1, k2, k3, k4]
  have hz := hm i hi j hj
  by_cases a : i = 0 <;> by_cases b : i = p <;> by_cases c : j = 0 <;> by_cases d : j = p <;>
    simp_all

/-- What the steps keep: either the link is to be cleared, or its matrix is that of its last port. -/
private def Inv (l : Link K) : Prop :=
  0 < l.n ∧ (l.last = -1 ∨ ∃ p : ℕ, l.last = p ∧ p < l.n ∧ ∃ g, (p = 0 → g = 0) ∧ c96Is l p g)

private theorem spec_zero (p i j : ℕ) : c96Spec p (0 : K) i j = 0 := by simp [c96Spec]

private theorem spec_off (p : ℕ) (g : K) (i j : ℕ) (h : ¬ ((i = 0 ∨ i = p) ∧ (j = 0 ∨ j = p))) : c96Spec p g i j = 0 := by
  unfold c96Spec c96Sign
  by_cases a : i = 0 <;> by_cases b : i = p <;> by_cases c : j = 0 <;> by_cases d : j = p <;> simp_all

private theorem step_is (l : Link K) (h : Inv l) :
    (step l).n = l.n ∧ (step l).sel = l.sel ∧ (step l).eff = effective l ∧ (step l).last = port l
      ∧ c96Is (step l) (port l) (if 0 < port l then effective l else 0) := by
  obtain ⟨hn, h⟩ := h
  have hp := (c96_port l hn).1
  have hport : port (clear { l with eff := effective l }) = port l := rfl
  set g : K := if 0 < port l then effective l else 0 with hg
  -- the matrix after the clearing
  have hclear : ∃ g0, (port l = 0 → g0 = 0) ∧ ∀ i < l.n, ∀ j < l.n,
      (clear { l with eff := effective l }).mat (i * l.n + j) = c96Spec (port l) g0 i j := by
    by_cases hc : (port l : ℤ) ≠ l.last
    · refine ⟨0, fun _ => rfl, fun i _ j _ => ?_⟩
      have : (clear { l with eff := effective l }).mat = fun _ => 0 := by
        show (if (port l : ℤ) ≠ l.last then fun _ => 0 else l.mat) = _
        rw [if_pos hc]
      rw [this, spec_zero]
    · have hc' : (port l : ℤ) = l.last := not_not.mp hc
      rcases h with h | ⟨p, h1, h2, g0, h3, h4⟩
      · omega
      · have e : p = port l := by omega
        subst e
        refine ⟨g0, h3, fun i hi j hj => ?_⟩
        have : (clear { l with eff := effective l }).mat = l.mat := by
          show (if (port l : ℤ) ≠ l.last then fun _ => 0 else l.mat) = _
          rw [if_neg hc]
        rw [this]
        exact h4 i hi j hj
  obtain ⟨g0, hg0, hm⟩ := hclear
  have hbuild : step l = (if 0 < |(clear { l with eff := effective l }).mat 0 - g| then
      ({ clear { l with eff := effective l } with
        sys := g
        mat := writes l.n (port l) g (clear { l with eff := effective l }).mat
        update := true } : Link K)
      else { clear { l with eff := effective l } with sys := g }) := rfl
  have hm0 : (clear { l with eff := effective l }).mat 0 = c96Spec (port l) g0 0 0 := by
    have := hm 0 hn 0 hn
    simpa using this
  rw [hbuild]
  by_cases hz : 0 < |(clear { l with eff := effective l }).mat 0 - g|
  · rw [if_pos hz]
    refine ⟨rfl, rfl, rfl, rfl, fun i hi j hj => ?_⟩
    by_cases hp0 : 0 < port l
    · exact writes_spec l.n (port l) g _ hp0 hp (fun i hi j hj hoff => by rw [hm i hi j hj]; exact spec_off _ _ _ _ hoff) i j hi hj
    · exfalso
      have e0 : port l = 0 := by omega
      rw [hm0, hg0 e0, spec_zero, hg, if_neg hp0] at hz
      simp at hz
  · rw [if_neg hz]
    refine ⟨rfl, rfl, rfl, rfl, fun i hi j hj => ?_⟩
    show (clear { l with eff := effective l }).mat (i * l.n + j) = _
    rw [hm i hi j hj]
    by_cases hp0 : 0 < port l
    · have e : c96Spec (port l) g0 0 0 = g0 := by
        have : (0 : ℕ) ≠ port l := by omega
        simp [c96Spec, c96Sign, this]
      have : g0 = g := by
        rw [hm0, e] at hz
        have : |g0 - g| = 0 := le_antisymm (not_lt.mp hz) (abs_nonneg _)
        linarith [abs_eq_zero.mp this]
      rw [this]
    · have e0 : port l = 0 := by omega
      rw [hg0 e0, hg, if_neg hp0]

private theorem inv_handle (l : Link K) (e : Event K) (h : Inv l) : Inv (handle l e) := by
  cases e with
  | step =>
    obtain ⟨h1, -, -, h4, h5⟩ := step_is l h
    refine ⟨by show 0 < (step l).n; rw [h1]; exact h.1, Or.inr ⟨port l, h4, ?_, _, ?_, h5⟩⟩
    · show port l < (step l).n
      rw [h1]; exact (c96_port l h.1).1
    · intro h0
      rw [if_neg (by omega)]
  | select i => exact h
  | conductance g => exact h
  | block b => exact h
  | taken => exact h
  | flows v => exact h
  | restart => exact ⟨h.1, Or.inl rfl⟩

private theorem inv_all (n : ℕ) (sel : ℤ) (g : K) (b : Option K) (hn : 0 < n) (es : List (Event K)) :
    Inv (es.foldl handle (start n sel g b)) := by
  have key : ∀ (es : List (Event K)) (l : Link K), Inv l → Inv (es.foldl handle l) := by
    intro es
    induction es with
    | nil => intro l h; exact h
    | cons e es ih => intro l h; exact ih _ (inv_handle l e h)
  exact key es _ ⟨hn, Or.inl rfl⟩

private theorem n_all (n : ℕ) (sel : ℤ) (g : K) (b : Option K) (hn : 0 < n) (es : List (Event K)) :
    (es.foldl handle (start n sel g b)).n = n := by
  have key : ∀ (es : List (Event K)) (l : Link K), Inv l → (es.foldl handle l).n = l.n := by
    intro es
    induction es with
    | nil => intro l _; rfl
    | cons e es ih =>
      intro l h
      rw [List.foldl_cons, ih _ (inv_handle l e h)]
      cases e with
      | step => exact (step_is l h).1
      | _ => rfl
  exact key es _ ⟨hn, Or.inl rfl⟩

/-- After any selections, conductances, blockages, restarts and steps, the next step leaves the matrix of one conductance between
port 0 and the connected port, of the effective conductance, and of none if no port is connected. -/
theorem c96_matrix (n : ℕ) (sel : ℤ) (g : K) (b : Option K) (hn : 0 < n) (es : List (Event K)) (i j : ℕ) (hi : i < n) (hj : j < n) :
    let l := es.foldl handle (start n sel g b)
    (step l).mat (i * n + j) = c96Spec (port l) (if 0 < port l then effective l else 0) i j := by
  intro l
  have h := inv_all n sel g b hn es
  have hnn : l.n = n := n_all n sel g b hn es
  obtain ⟨h1, -, -, -, h5⟩ := step_is l h
  have := h5 i (by rw [h1, hnn]; exact hi) j (by rw [h1, hnn]; exact hj)
  rw [h1, hnn] at this
  exact this

/-- So the matrix is symmetric and its rows have the sum zero. -/
theorem c96_sums (n : ℕ) (sel : ℤ) (g : K) (b : Option K) (hn : 0 < n) (es : List (Event K)) (i : ℕ) (hi : i < n) :
    let l := es.foldl handle (start n sel g b)
    (∀ j < n, (step l).mat (i * n + j) = (step l).mat (j * n + i)) ∧ ∑ j ∈ Finset.range n, (step l).mat (i * n + j) = 0 := by
  intro l
  have hm := c96_matrix n sel g b hn es
  refine ⟨fun j hj => ?_, ?_⟩
  · rw [hm i j hi hj, hm j i hj hi]
    unfold c96Spec; ring
  · have hp : port l < n := by
      have h := inv_all n sel g b hn es
      have hnn : l.n = n := n_all n sel g b hn es
      have := (c96_port l h.1).1
      rw [hnn] at this; exact this
    have e : ∀ j ∈ Finset.range n, (step l).mat (i * n + j)
        = (if 0 < port l then effective l else 0) * c96Sign (port l) i * c96Sign (port l) j := fun j hj => hm i j hi (Finset.mem_range.mp hj)
    rw [Finset.sum_congr rfl e, ← Finset.mul_sum]
    have : ∑ j ∈ Finset.range n, (c96Sign (port l) j : K) = 0 := by
      unfold c96Sign
      rw [Finset.sum_sub_distrib, Finset.sum_ite_eq', Finset.sum_ite_eq', if_pos (Finset.mem_range.mpr hn), if_pos (Finset.mem_range.mpr hp), sub_self]
    rw [this, mul_zero]

/-- The effective conductance is none or between the least and the greatest of the solver, and the default less the blockage if that is. -/
theorem c96_effective (l : Link K) :
    (effective l = 0 ∨ 100 * dblEps ≤ effective l) ∧ effective l ≤ SwUtil.condLimit
      ∧ (∀ b, l.block = some b → 0 ≤ b → b ≤ 1 → 100 * dblEps ≤ l.dflt * (1 - b) → l.dflt * (1 - b) ≤ SwUtil.condLimit →
          effective l = l.dflt * (1 - b))
      ∧ (∀ b, l.block = some b → 1 ≤ b → effective l = 0) ∧ (∀ b, l.block = some b → b ≤ 0 → effective l = effective { l with block := none })
      ∧ (l.block = none → 100 * dblEps ≤ l.dflt → l.dflt ≤ SwUtil.condLimit → effective l = l.dflt) := by
  have he := dblEps_pos (K := K)
  have hd : (100 : K) * dblEps ≤ SwUtil.condLimit := by
    have h1 := dblEps_lt_one (K := K)
    have h2 : (100 : K) ≤ SwUtil.condLimit := by unfold SwUtil.condLimit; norm_num
    linarith
  have hl : (0 : K) ≤ SwUtil.condLimit := by unfold SwUtil.condLimit; positivity
  refine ⟨?_, ?_, ?_, ?_, ?_, ?_⟩
  · have key : ∀ g : K, (if g < 100 * dblEps then 0 else min g SwUtil.condLimit) = 0
        ∨ 100 * dblEps ≤ (if g < 100 * dblEps then 0 else min g SwUtil.condLimit) := by
      intro g
      by_cases h : g < 100 * dblEps
      · left; rw [if_pos h]
      · right; rw [if_neg h]; exact le_min (not_lt.mp h) hd
    exact key _
  · have key : ∀ g : K, (if g < 100 * dblEps then 0 else min g SwUtil.condLimit) ≤ SwUtil.condLimit := by
      intro g
      by_cases h : g < 100 * dblEps
      · rw [if_pos h]; exact hl
      · rw [if_neg h]; exact min_le_right _ _
    exact key _
  · intro b hb h0 h1 h2 h3
    unfold effective
    have e : Interp.limitRange 0 (1 - b) 1 = 1 - b := by
      unfold Interp.limitRange
      rw [min_eq_left (by linarith), max_eq_left (by linarith)]
    simp only [hb, e]
    rw [if_neg (not_lt.mpr h2), min_eq_left h3]
  · intro b hb h1
    unfold effective
    have e : Interp.limitRange 0 (1 - b) 1 = 0 := by
      unfold Interp.limitRange
      rw [min_eq_left (by linarith), max_eq_right (by linarith)]
    simp only [hb, e, mul_zero]
    rw [if_pos (by linarith)]
  · intro b hb h1
    unfold effective
    have e : Interp.limitRange 0 (1 - b) 1 = 1 := by
      unfold Interp.limitRange
      rw [min_eq_right (by linarith), max_eq_left (by linarith)]
    simp only [hb, e, mul_one]
  · intro hb h1 h2
    unfold effective
    simp only [hb]
    rw [if_neg (not_lt.mpr h1), min_eq_left h2]

/-- The flux flows down the potential, is that of the effective conductance unless the potentials are all but equal, and takes power out;
with no port connected nothing flows. -/
theorem c96_flows (n : ℕ) (sel : ℤ) (g : K) (b : Option K) (hn : 0 < n) (es : List (Event K)) (v : ℕ → K) :
    let l := step (es.foldl handle (start n sel g b))
    let f := flows v l
    0 ≤ f.flux * (v 0 - v (port l)) ∧ f.power ≤ 0
      ∧ (max (v 0) (v (port l)) * (100 * dblEps) ≤ |v 0 - v (port l)| → 0 < port l → f.flux = (v 0 - v (port l)) * l.eff)
      ∧ (|v 0 - v (port l)| < max (v 0) (v (port l)) * (100 * dblEps) → f.flux = 0)
      ∧ (port l = 0 → f.flux = 0 ∧ f.power = 0) := by
  intro l f
  have he := dblEps_pos (K := K)
  set q := es.foldl handle (start n sel g b) with hq
  have hinv : Inv q := inv_all n sel g b hn es
  obtain ⟨h1, h2, h3, h4, h5⟩ := step_is q hinv
  have hpq : port l = port q := by
    unfold port
    rw [h1, h2]
  have hm := c96_matrix n sel g b hn es 0 0 hn hn
  have hm0 : l.mat 0 = if 0 < port q then effective q else 0 := by
    have e : l.mat (0 * n + 0) = c96Spec (port q) (if 0 < port q then effective q else 0) 0 0 := hm
    rw [Nat.zero_mul, Nat.zero_add] at e
    rw [e]
    by_cases hp : 0 < port q
    · have : (0 : ℕ) ≠ port q := by omega
      simp [c96Spec, c96Sign, this]
    · simp [c96Spec, hp]
  have ha : 0 ≤ l.mat 0 := by
    rw [hm0]
    split
    · rcases (c96_effective q).1 with h | h
      · rw [h]
      · linarith
    · exact le_refl _
  have hf : f.flux = flux (v 0) (v (port l)) (v 0 - v (port l)) (l.mat 0) := rfl
  have hpw : f.power = -f.flux * (v 0 - v (port l)) := rfl
  have hnn : 0 ≤ f.flux * (v 0 - v (port l)) := by
    rw [hf]; unfold flux
    split
    · simp
    · have : (v 0 - v (port l)) * l.mat 0 * (v 0 - v (port l)) = (v 0 - v (port l)) * (v 0 - v (port l)) * l.mat 0 := by ring
      rw [this]
      exact mul_nonneg (mul_self_nonneg _) ha
  refine ⟨hnn, by rw [hpw]; linarith, ?_, ?_, ?_⟩
  · intro ht hp
    rw [hf]; unfold flux
    rw [if_neg (not_lt.mpr ht), hm0, ← hpq, if_pos hp]
    show _ = _ * (step q).eff
    rw [h3]
  · intro ht
    rw [hf]; unfold flux
    rw [if_pos ht]
  · intro h0
    have : f.flux = 0 := by
      rw [hf, h0, sub_self]; unfold flux
      split <;> simp
    exact ⟨this, by rw [hpw, this]; simp⟩

/-- A step that changes the matrix says so, unless it leaves no conductance at all after a change of the port. -/
theorem c96_told (l : Link K) :
    (step l).update = true ∨ (step l).mat = l.mat ∨ ((port l : ℤ) ≠ l.last ∧ (step l).mat = fun _ => 0) := by
  have hb : step l = build (clear { l with eff := effective l }) := rfl
  have key : ∀ q : Link K, (build q).update = true ∨ (build q).mat = q.mat := by
    intro q
    by_cases h : 0 < |q.mat 0 - if 0 < port q then q.eff else 0|
    · left; unfold build; simp only [h, if_true]
    · right; unfold build; simp only [h, if_false]
  rw [hb]
  rcases key (clear { l with eff := effective l }) with h | h
  · exact Or.inl h
  · right
    rw [h]
    by_cases hc : (port l : ℤ) ≠ l.last
    · right
      refine ⟨hc, ?_⟩
      show (if (port l : ℤ) ≠ l.last then fun _ => 0 else l.mat) = _
      rw [if_pos hc]
    · left
      show (if (port l : ℤ) ≠ l.last then fun _ => 0 else l.mat) = _
      rw [if_neg hc]

/-- A change to another port with a conductance is always told. -/
theorem c96_told_switch (l : Link K) (h : (port l : ℤ) ≠ l.last) (hp : 0 < port l) (he : 0 < effective l) : (step l).update = true := by
  have hb : step l = build (clear { l with eff := effective l }) := rfl
  have hm : (clear { l with eff := effective l }).mat 0 = 0 := by
    show (if (port l : ℤ) ≠ l.last then fun _ => (0 : K) else l.mat) 0 = 0
    rw [if_pos h]
  have hp' : 0 < port (clear { l with eff := effective l }) := hp
  rw [hb]
  unfold build
  simp only [hm, hp', if_true]
  rw [if_pos (by
    show 0 < |0 - effective l|
    rw [zero_sub, abs_neg, abs_of_pos he]; exact he)]

/-- When a port is dropped its conductance is taken out of the matrix and the network is not told. -/
theorem c96_untold (l : Link K) (h : port l = 0) (hl : l.last ≠ 0) :
    (step l).update = l.update ∧ (step l).mat = fun _ => 0 := by
  have hb : step l = build (clear { l with eff := effective l }) := rfl
  have hne : (port l : ℤ) ≠ l.last := by rw [h]; exact fun e => hl (by simpa using e.symm)
  have hm : (clear { l with eff := effective l }).mat = fun _ => 0 := by
    show (if (port l : ℤ) ≠ l.last then fun _ => (0 : K) else l.mat) = _
    rw [if_pos hne]
  have hp' : ¬ 0 < port (clear { l with eff := effective l }) := by
    show ¬ 0 < port l
    omega
  rw [hb]
  unfold build
  simp only [hm, hp', if_false, sub_self, abs_zero, lt_irrefl]
  exact ⟨rfl, trivial⟩

/-- The case: three ports, port 2 connected with 5 and taken by the network, then dropped. -/
theorem c96_untold_case :
    let l := [Event.step, .taken].foldl handle (start 3 2 (5 : ℚ) none)
    let m := [Event.select 0, .step].foldl handle l
    l.mat 0 = 5 ∧ l.mat 8 = 5 ∧ m.mat 0 = 0 ∧ m.mat 8 = 0 ∧ m.update = false := by
  decide +kernel

/-- What is accepted can be stepped: the matrix has a place for the connected port. -/
theorem c96_valid (n : ℕ) (sel : ℤ) (g : K) :
    valid n sel g = true ↔ 2 ≤ n ∧ 0 ≤ g ∧ (port (start n sel g none) : ℤ) = sel := by
  unfold valid port start
  simp only [decide_eq_true_eq]
  constructor
  · rintro ⟨h1, h2, h3, h4⟩
    refine ⟨h1, h2, ?_⟩
    split <;> omega
  · rintro ⟨h1, h2, h3⟩
    refine ⟨h1, h2, ?_, ?_⟩
    · omega
    · split at h3 <;> omega

example :
    let l := [Event.step, .taken, .select 1].foldl handle (start 3 2 (5 : ℚ) none)
    (port l : ℤ) ≠ l.last ∧ 0 < port l ∧ 0 < effective l := by
  decide +kernel

example : valid 4 3 (2 : ℚ) = true ∧ valid 4 4 (2 : ℚ) = false := by decide +kernel

example :
    let l := [Event.step, .select 3, .block (some (1 / 2)), .step].foldl handle (start 4 1 (2 : ℚ) none)
    l.mat 0 = 1 ∧ l.mat 3 = -1 ∧ l.mat 12 = -1 ∧ l.mat 15 = 1 ∧ l.mat 5 = 0 ∧ l.update = true ∧ (flows (fun i => if i = 0 then 10 else 4) l).flux = 6 := by
  decide +kernel

end Gunns.Props
