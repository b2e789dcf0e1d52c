import Verif.Link.Analyzers
import Mathlib.Tactic.Linarith
import Mathlib.Tactic.Ring
import Mathlib.Tactic.Positivity
import Mathlib.Algebra.BigOperators.Ring.Finset

/-!
# C98: the island analyzers and the flow integrator
-/

set_option linter.unusedSectionVars false

namespace Gunns.Props

open Gunns Gunns.Spot

variable {K : Type*} [Field K] [LinearOrder K] [IsStrictOrderedRing K]

/-- The specification of a highest value: it is that of a node of the island, no node has more, and of those with as much it is the last. -/
def c98High (x : ℕ → K) (l : List ℕ) (e : Extreme K) : Prop :=
  ∃ (a : List ℕ) (n : ℕ) (b : List ℕ), l = a ++ n :: b ∧ e.node = (n : ℤ) ∧ e.value = x n ∧ (∀ m ∈ a, x m ≤ x n) ∧ ∀ m ∈ b, x m < x n

/-- The specification of a lowest value. -/
def c98Low (x : ℕ → K) (l : List ℕ) (e : Extreme K) : Prop :=
  ∃ (a : List ℕ) (n : ℕ) (b : List ℕ), l = a ++ n :: b ∧ e.node = (n : ℤ) ∧ e.value = x n ∧ (∀ m ∈ a, x n ≤ x m) ∧ ∀ m ∈ b, x n < x m

private theorem hi_spec (x : ℕ → K) (l : List ℕ) (h : l ≠ []) (hx : ∀ n ∈ l, -far ≤ x n) : c98High x l (l.foldl (hi x) ⟨-far, -1⟩) := by
  induction l using List.reverseRecOn with
  | nil => exact absurd rfl h
  | append_singleton l n ih =>
    rw [List.foldl_append, List.foldl_cons, List.foldl_nil]
    cases hl : l with
    | nil =>
      refine ⟨[], n, [], by simp, ?_, ?_, by simp, by simp⟩
      · have e : hi x ⟨-far, -1⟩ n = ⟨x n, n⟩ := if_pos (hx n (by simp))
        show (hi x ⟨-far, -1⟩ n).node = _
        rw [e]
      · have e : hi x ⟨-far, -1⟩ n = ⟨x n, n⟩ := if_pos (hx n (by simp))
        show (hi x ⟨-far, -1⟩ n).value = _
        rw [e]
    | cons y ys =>
      rw [← hl]
      obtain ⟨a, m, b, e1, e2, e3, e4, e5⟩ := ih (by rw [hl]; simp) (fun k hk => hx k (by simp [hk]))
      by_cases hc : (l.foldl (hi x) ⟨-far, -1⟩).value ≤ x n
      · refine ⟨l, n, [], rfl, ?_, ?_, ?_, by simp⟩
        · unfold hi at hc ⊢; rw [if_pos hc]
        · unfold hi at hc ⊢; rw [if_pos hc]
        · intro k hk
          rw [e3] at hc
          rw [e1] at hk
          rcases List.mem_append.mp hk with h1 | h1
          · exact (e4 k h1).trans hc
          · rcases List.mem_cons.mp h1 with rfl | h2
            · exact hc
            · exact (e5 k h2).le.trans hc
      · refine ⟨a, m, b ++ [n], by rw [e1]; simp, ?_, ?_, e4, ?_⟩
        · show (if (l.foldl (hi x) ⟨-far, -1⟩).value ≤ x n then _ else _ : Extreme K).node = _
          rw [if_neg hc]; exact e2
        · show (if (l.foldl (hi x) ⟨-far, -1⟩).value ≤ x n then _ else _ : Extreme K).value = _
          rw [if_neg hc]; exact e3
        · intro k hk
          rcases List.mem_append.mp hk with h1 | h1
          · exact e5 k h1
          · rw [List.mem_singleton.mp h1, ← e3]; exact not_le.mp hc

private theorem lo_spec (x : ℕ → K) (l : List ℕ) (h : l ≠ []) (hx : ∀ n ∈ l, x n ≤ far) : c98Low x l (l.foldl (lo x) ⟨far, -1⟩) := by
  induction l using List.reverseRecOn with
  | nil => exact absurd rfl h
  | append_singleton l n ih =>
    rw [List.foldl_append, List.foldl_cons, List.foldl_nil]
    cases hl : l with
    | nil =>
      refine ⟨[], n, [], by simp, ?_, ?_, by simp, by simp⟩
      · have e : lo x ⟨far, -1⟩ n = ⟨x n, n⟩ := if_pos (hx n (by simp))
        show (lo x ⟨far, -1⟩ n).node = _
        rw [e]
      · have e : lo x ⟨far, -1⟩ n = ⟨x n, n⟩ := if_pos (hx n (by simp))
        show (lo x ⟨far, -1⟩ n).value = _
        rw [e]
    | cons y ys =>
      rw [← hl]
      obtain ⟨a, m, b, e1, e2, e3, e4, e5⟩ := ih (by rw [hl]; simp) (fun k hk => hx k (by simp [hk]))
      by_cases hc : x n ≤ (l.foldl (lo x) ⟨far, -1⟩).value
      · refine ⟨l, n, [], rfl, ?_, ?_, ?_, by simp⟩
        · unfold lo at hc ⊢; rw [if_pos hc]
        · unfold lo at hc ⊢; rw [if_pos hc]
        · intro k hk
          rw [e3] at hc
          rw [e1] at hk
          rcases List.mem_append.mp hk with h1 | h1
          · exact hc.trans (e4 k h1)
          · rcases List.mem_cons.mp h1 with rfl | h2
            · exact hc
            · exact hc.trans (e5 k h2).le
      · refine ⟨a, m, b ++ [n], by rw [e1]; simp, ?_, ?_, e4, ?_⟩
        · show (if x n ≤ (l.foldl (lo x) ⟨far, -1⟩).value then _ else _ : Extreme K).node = _
          rw [if_neg hc]; exact e2
        · show (if x n ≤ (l.foldl (lo x) ⟨far, -1⟩).value then _ else _ : Extreme K).value = _
          rw [if_neg hc]; exact e3
        · intro k hk
          rcases List.mem_append.mp hk with h1 | h1
          · exact e5 k h1
          · rw [List.mem_singleton.mp h1, ← e3]; exact not_le.mp hc

private theorem total_spec (x : ℕ → K) (l : List ℕ) (a : K) : l.foldl (total x) a = a + (l.map x).sum := by
  induction l generalizing a with
  | nil => simp
  | cons n l ih => rw [List.foldl_cons, ih, List.map_cons, List.sum_cons]; unfold total; ring

private theorem member_spec (l : List ℕ) (f : ℕ → Bool) (m : ℕ) :
    (l.foldl (fun (f : ℕ → Bool) (n : ℕ) => fun k => if k = n then true else f k) f) m = (decide (m ∈ l) || f m) := by
  induction l generalizing f with
  | nil => simp
  | cons n l ih =>
    rw [List.foldl_cons, ih]
    by_cases h : m = n
    · subst h; simp
    · simp [h]

/-- The report of the basic analyzer on an island: its nodes and no others, their number, the sum of their net fluxes, and their highest and lowest
potentials with their nodes. -/
theorem c98_basic (numNodes : ℕ) (attached : ℤ) (l : List ℕ) (flux p : ℕ → K) (h0 : 0 ≤ attached) (h1 : attached < (numNodes : ℤ) - 1)
    (hl : l ≠ []) (hp : ∀ n ∈ l, -far ≤ p n ∧ p n ≤ far) :
    let r := analyze numNodes attached (some l) flux p
    (∀ m, r.member m = true ↔ m ∈ l) ∧ r.size = l.length ∧ r.netFlux = (l.map flux).sum ∧ c98High p l r.high ∧ c98Low p l r.low := by
  intro r
  have key : ∀ (l : List ℕ) (s : Report K), l.foldl (visit flux p) s = ⟨l.foldl (fun (f : ℕ → Bool) (n : ℕ) => fun k => if k = n then true else f k) s.member,
      s.size, l.foldl (total flux) s.netFlux, l.foldl (hi p) s.high, l.foldl (lo p) s.low⟩ := by
    intro l
    induction l with
    | nil => intro s; rfl
    | cons n l ih => intro s; rw [List.foldl_cons, ih]; rfl
  have hr : r = l.foldl (visit flux p) { (reset : Report K) with
      size := l.length
      high := ⟨-far, -1⟩
      low := ⟨far, -1⟩ } := by
    show analyze numNodes attached (some l) flux p = _
    unfold analyze
    rw [if_pos ⟨by omega, h1⟩]
  rw [hr, key]
  refine ⟨fun m => ?_, rfl, ?_, hi_spec p l hl fun n hn => (hp n hn).1, lo_spec p l hl fun n hn => (hp n hn).2⟩
  · simp only [member_spec]; simp [reset]
  · simp only [total_spec]; simp [reset]

/-- An analyzer that is not on a node of the network, or on one without an island, reports nothing. -/
theorem c98_nothing (numNodes : ℕ) (attached : ℤ) (island : Option (List ℕ)) (flux p : ℕ → K) (x : ℕ → Node K)
    (h : attached < 0 ∨ (numNodes : ℤ) - 1 ≤ attached ∨ island = none) :
    analyze numNodes attached island flux p = reset ∧ analyzeFluid numNodes attached island x = resetFluid := by
  unfold analyze analyzeFluid
  rcases h with h | h | h
  · rw [if_neg (by omega), if_neg (by omega)]; exact ⟨rfl, rfl⟩
  · rw [if_neg (by omega), if_neg (by omega)]; exact ⟨rfl, rfl⟩
  · subst h
    constructor <;> split <;> rfl

/-- The report of the fluid analyzer: nodes, number, volume, mass and energy, and the highest and lowest pressure, temperature and mole fraction
of each constituent with their nodes. -/
theorem c98_fluid (numNodes : ℕ) (attached : ℤ) (l : List ℕ) (x : ℕ → Node K) (h0 : 0 ≤ attached) (h1 : attached < (numNodes : ℤ) - 1)
    (hl : l ≠ []) (hp : ∀ n ∈ l, -far ≤ (x n).pressure ∧ (x n).pressure ≤ far) (ht : ∀ n ∈ l, -far ≤ (x n).temperature ∧ (x n).temperature ≤ far)
    (hx : ∀ c, ∀ n ∈ l, -far ≤ (x n).moleFrac c ∧ (x n).moleFrac c ≤ far) :
    let r := analyzeFluid numNodes attached (some l) x
    ((∀ m, r.member m = true ↔ m ∈ l) ∧ r.size = l.length)
      ∧ (r.volume = (l.map fun n => (x n).volume).sum ∧ r.mass = (l.map fun n => (x n).mass).sum
        ∧ r.energy = (l.map fun n => (x n).mass * (x n).enthalpy).sum ∧ ∀ c, r.parts c = (l.map fun n => (x n).mass * (x n).massFrac c).sum)
      ∧ c98High (fun n => (x n).pressure) l r.hiP ∧ c98Low (fun n => (x n).pressure) l r.loP
      ∧ c98High (fun n => (x n).temperature) l r.hiT ∧ c98Low (fun n => (x n).temperature) l r.loT
      ∧ ∀ c, c98High (fun n => (x n).moleFrac c) l (r.hiX c) ∧ c98Low (fun n => (x n).moleFrac c) l (r.loX c) := by
  intro r
  have key : ∀ (l : List ℕ) (s : Fluid K), l.foldl (visitFluid x) s =
      { s with
        member := l.foldl (fun (f : ℕ → Bool) (n : ℕ) => fun k => if k = n then true else f k) s.member
        hiP := l.foldl (hi fun m => (x m).pressure) s.hiP
        loP := l.foldl (lo fun m => (x m).pressure) s.loP
        hiT := l.foldl (hi fun m => (x m).temperature) s.hiT
        loT := l.foldl (lo fun m => (x m).temperature) s.loT
        parts := fun c => l.foldl (total fun m => (x m).mass * (x m).massFrac c) (s.parts c)
        hiX := fun c => l.foldl (hi fun m => (x m).moleFrac c) (s.hiX c)
        loX := fun c => l.foldl (lo fun m => (x m).moleFrac c) (s.loX c)
        volume := l.foldl (total fun m => (x m).volume) s.volume
        mass := l.foldl (total fun m => (x m).mass) s.mass
        energy := l.foldl (total fun m => (x m).mass * (x m).enthalpy) s.energy } := by
    intro l
    induction l with
    | nil => intro s; rfl
    | cons n l ih => intro s; rw [List.foldl_cons, ih]; rfl
  have hr : r = l.foldl (visitFluid x) { (resetFluid : Fluid K) with
        size := l.length
        hiP := ⟨-far, -1⟩
        loP := ⟨far, -1⟩
        hiT := ⟨-far, -1⟩
        loT := ⟨far, -1⟩
        hiX := fun _ => ⟨-far, -1⟩
        loX := fun _ => ⟨far, -1⟩ } := by
    show analyzeFluid numNodes attached (some l) x = _
    unfold analyzeFluid
    rw [if_pos ⟨by omega, h1⟩]
  rw [hr, key]
  refine ⟨⟨fun m => ?_, rfl⟩, ⟨?_, ?_, ?_, fun c => ?_⟩, hi_spec _ l hl fun n hn => (hp n hn).1, lo_spec _ l hl fun n hn => (hp n hn).2,
    hi_spec _ l hl fun n hn => (ht n hn).1, lo_spec _ l hl fun n hn => (ht n hn).2,
    fun c => ⟨hi_spec _ l hl fun n hn => (hx c n hn).1, lo_spec _ l hl fun n hn => (hx c n hn).2⟩⟩
  · simp only [member_spec]; simp [resetFluid]
  all_goals simp only [total_spec]; simp [resetFluid]

/-- The masses of the constituents of an island add up to its mass, if the mass fractions of each of its nodes add up to one. -/
theorem c98_parts (numNodes : ℕ) (attached : ℤ) (island : Option (List ℕ)) (x : ℕ → Node K) (k : ℕ)
    (h : ∀ l, island = some l → ∀ n ∈ l, ∑ c ∈ Finset.range k, (x n).massFrac c = 1) :
    ∑ c ∈ Finset.range k, (analyzeFluid numNodes attached island x).parts c = (analyzeFluid numNodes attached island x).mass := by
  unfold analyzeFluid
  split
  · cases island with
    | none => simp [resetFluid]
    | some l =>
      have key : ∀ (l : List ℕ) (s : Fluid K), (∀ n ∈ l, ∑ c ∈ Finset.range k, (x n).massFrac c = 1) → ∑ c ∈ Finset.range k, s.parts c = s.mass →
          ∑ c ∈ Finset.range k, (l.foldl (visitFluid x) s).parts c = (l.foldl (visitFluid x) s).mass := by
        intro l
        induction l with
        | nil => intro s _ hs; exact hs
        | cons n l ih =>
          intro s hl hs
          rw [List.foldl_cons]
          refine ih _ (fun m hm => hl m (List.mem_cons_of_mem _ hm)) ?_
          show ∑ c ∈ Finset.range k, (s.parts c + (x n).mass * (x n).massFrac c) = s.mass + (x n).mass
          rw [Finset.sum_add_distrib, ← Finset.mul_sum, hl n (by simp), hs, mul_one]
      exact key l _ (h l rfl) (by simp [resetFluid])
  · simp [resetFluid]

/-- Of potentials beyond the start of the search the highest or lowest is missed: the report names no node. -/
theorem c98_far (numNodes : ℕ) (attached : ℤ) (l : List ℕ) (flux p : ℕ → K) (h0 : 0 ≤ attached) (h1 : attached < (numNodes : ℤ) - 1)
    (hp : ∀ n ∈ l, far < p n) : (analyze numNodes attached (some l) flux p).low = ⟨far, -1⟩ := by
  have key : ∀ (l : List ℕ) (s : Report K), s.low = ⟨far, -1⟩ → (∀ n ∈ l, far < p n) → (l.foldl (visit flux p) s).low = ⟨far, -1⟩ := by
    intro l
    induction l with
    | nil => intro s hs _; exact hs
    | cons n l ih =>
      intro s hs h
      rw [List.foldl_cons]
      refine ih _ ?_ fun m hm => h m (List.mem_cons_of_mem _ hm)
      show lo p s.low n = _
      rw [hs]
      unfold lo
      rw [if_neg (not_le.mpr (h n (by simp)))]
  unfold analyze
  rw [if_pos ⟨by omega, h1⟩]
  exact key l _ rfl hp

/-! ## The flow integrator -/

/-- The fractions of the fluid that flows in a pass: those of the node it comes from. -/
def c98From (s : Pass K) (c : ℕ) : K := if 0 < s.rate then s.x0 c else s.x1 c

/-- Over any passes each constituent has gained the sum of what flowed of it, counted against its direction. -/
theorem c98_integral (m : ℕ → K) (ss : List (Pass K)) (c : ℕ) :
    (ss.foldl integrate m) c = m c + (ss.map fun s => c98From s c * s.rate * s.dt).sum := by
  induction ss generalizing m with
  | nil => simp
  | cons s ss ih =>
    rw [List.foldl_cons, ih, List.map_cons, List.sum_cons]
    unfold integrate c98From
    split <;> ring

/-- So the gains of all add up to the integral of the flow rate, if the fractions add up to one. -/
theorem c98_all (m : ℕ → K) (ss : List (Pass K)) (k : ℕ) (h : ∀ s ∈ ss, ∑ c ∈ Finset.range k, s.x0 c = 1 ∧ ∑ c ∈ Finset.range k, s.x1 c = 1) :
    ∑ c ∈ Finset.range k, (ss.foldl integrate m) c = ∑ c ∈ Finset.range k, m c + (ss.map fun s => s.rate * s.dt).sum := by
  induction ss generalizing m with
  | nil => simp
  | cons s ss ih =>
    rw [List.foldl_cons, ih _ fun t ht => h t (List.mem_cons_of_mem _ ht), List.map_cons, List.sum_cons, ← add_assoc]
    congr 1
    obtain ⟨h1, h2⟩ := h s (by simp)
    unfold integrate
    have e : ∀ x : ℕ → K, ∑ c ∈ Finset.range k, x c = 1 → ∑ c ∈ Finset.range k, (m c + x c * s.rate * s.dt) = ∑ c ∈ Finset.range k, m c + s.rate * s.dt := by
      intro x hx
      have : ∀ c ∈ Finset.range k, m c + x c * s.rate * s.dt = m c + x c * (s.rate * s.dt) := fun c _ => by ring
      rw [Finset.sum_congr rfl this, Finset.sum_add_distrib, ← Finset.sum_mul, hx, one_mul]
    split
    · exact e _ h1
    · exact e _ h2

/-- What flows forth and back with one composition leaves no trace. -/
theorem c98_back (m : ℕ → K) (x : ℕ → K) (r dt : K) : [⟨x, x, r, dt⟩, ⟨x, x, -r, dt⟩].foldl integrate m = m := by
  funext c
  rw [c98_integral]
  simp only [List.map_cons, List.map_nil, List.sum_cons, List.sum_nil, c98From, ite_self]
  ring

/-! ## Cases -/

example :
    let r := analyze 6 1 (some [1, 3, 4]) (fun n => (n : ℚ)) (fun n => if n = 3 then -5 else 7)
    r.high = ⟨7, 4⟩ ∧ r.low = ⟨-5, 3⟩ ∧ r.netFlux = 8 ∧ r.size = 3 ∧ r.member 3 = true ∧ r.member 2 = false := by
  decide +kernel

example : ([⟨fun _ => 1 / 2, fun _ => 1 / 4, 2, 1⟩, ⟨fun _ => 1 / 2, fun _ => 1 / 4, -2, 1⟩].foldl integrate (fun _ => (0 : ℚ))) 0 = 1 / 2 := by
  decide +kernel

end Gunns.Props
