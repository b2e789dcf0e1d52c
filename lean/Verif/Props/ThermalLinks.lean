import Verif.Thermal.Links
import Verif.Props.Elements
import Mathlib.Analysis.SpecialFunctions.Integrals.Basic
import Mathlib.Tactic.LinearCombination

/-!
# C68: thermal links
-/

set_option linter.unusedSectionVars false

namespace Gunns.Props

open Gunns.Elements Gunns.Thermal
open Finset (range)

variable {K : Type _} [Field K] [LinearOrder K] [IsStrictOrderedRing K]

/-! ## Radiation -/

private theorem radiation_pos {T0 T1 : K} (h0 : 0 ≤ T0) (h1 : 0 ≤ T1) : 0 ≤ (T0 ^ 2 + T1 ^ 2) * (T0 + T1) :=
  mul_nonneg (add_nonneg (sq_nonneg _) (sq_nonneg _)) (add_nonneg h0 h1)

/-- Where the temperatures differ, the link has a conductance that gives the law of radiation: it is not negative, does not
depend on the direction, and is at most four times the cube of the higher temperature. -/
theorem c68_radiation {t : Two K} {view B : K} (hv : 0 ≤ view) (hB : 0 ≤ B) (h0 : 0 ≤ t.pot 0) (h1 : 0 ≤ t.pot 1)
    (hd : dblEps < |t.pot 0 - t.pot 1|) :
    let G := radiationConductivity view B t
    G * (t.pot 0 - t.pot 1) = view * B * (t.pot 0 ^ 4 - t.pot 1 ^ 4) ∧ 0 ≤ G ∧
    G = radiationConductivity view B { t with pot := fun i => t.pot (1 - i) } ∧
    ∀ T, t.pot 0 ≤ T → t.pot 1 ≤ T → G ≤ 4 * (view * B) * T ^ 3 := by
  intro G
  have hne : t.pot 0 - t.pot 1 ≠ 0 := by
    intro h; rw [h, abs_zero] at hd
    exact absurd hd (not_lt.mpr dblEps_pos.le)
  have e : G = view * B * ((t.pot 0 ^ 2 + t.pot 1 ^ 2) * (t.pot 0 + t.pot 1)) := by
    have e1 : G = _ := if_pos hd
    rw [e1, div_eq_iff hne]
    ring
  have hvB : 0 ≤ view * B := mul_nonneg hv hB
  refine ⟨?_, ?_, ?_, fun T hT0 hT1 => ?_⟩
  · rw [e]; ring
  · rw [e]; exact mul_nonneg hvB (radiation_pos h0 h1)
  · have hd' : dblEps < |t.pot 1 - t.pot 0| := by rwa [abs_sub_comm]
    have hne' : t.pot 1 - t.pot 0 ≠ 0 := by
      intro h; exact hne (by linear_combination -h)
    have e2 : radiationConductivity view B { t with pot := fun i => t.pot (1 - i) } = _ := if_pos hd'
    rw [e2, e, eq_div_iff hne']
    show _ = view * B * (t.pot 1 * t.pot 1 * t.pot 1 * t.pot 1 - t.pot 0 * t.pot 0 * t.pot 0 * t.pot 0)
    ring
  · rw [e]
    have a : t.pot 0 ^ 2 ≤ T ^ 2 := pow_le_pow_left₀ h0 hT0 2
    have b : t.pot 1 ^ 2 ≤ T ^ 2 := pow_le_pow_left₀ h1 hT1 2
    have c : (t.pot 0 ^ 2 + t.pot 1 ^ 2) * (t.pot 0 + t.pot 1) ≤ (T ^ 2 + T ^ 2) * (T + T) :=
      mul_le_mul (add_le_add a b) (add_le_add hT0 hT1) (add_nonneg h0 h1) (add_nonneg (sq_nonneg _) (sq_nonneg _))
    calc view * B * ((t.pot 0 ^ 2 + t.pot 1 ^ 2) * (t.pot 0 + t.pot 1)) ≤ view * B * ((T ^ 2 + T ^ 2) * (T + T)) :=
          mul_le_mul_of_nonneg_left c hvB
      _ = 4 * (view * B) * T ^ 3 := by ring

/-- The heat that a step of the link lets flow at the temperatures it was made for. -/
theorem c68_radiation_flow {t : Two K} {g0 : K} (ht : IsStamp g0 t.adm) {view B : K} (hv : 0 ≤ view) (hB : 0 ≤ B)
    (h0 : 0 ≤ t.pot 0) (h1 : 0 ≤ t.pot 1) (hd : dblEps < |t.pot 0 - t.pot 1|)
    (hdead : max (t.pot 0) (t.pot 1) * eps100 ≤ |t.pot 0 - t.pot 1|) {blk : K} (hb0 : 0 ≤ blk) (hb1 : blk ≤ 1)
    (hlim : ∀ T, t.pot 0 ≤ T → t.pot 1 ≤ T → 4 * (view * B) * T ^ 3 ≤ 10 ^ 15) :
    (conductorFlows (radiationStep view B (some blk) t)).flux =
      (1 - blk) * (view * B * (t.pot 0 ^ 4 - t.pot 1 ^ 4)) := by
  obtain ⟨r1, r2, -, r4⟩ := c68_radiation hv hB h0 h1 hd
  obtain ⟨G, hG⟩ : ∃ G, G = radiationConductivity view B t := ⟨_, rfl⟩
  rw [← hG] at r1 r2 r4
  obtain ⟨g, hs, -, -, hg, -⟩ := c23_stamp ht (radiationConductivity view B t) (some blk)
  rw [← hG] at hg
  have hgv : g = G * (1 - blk) := by
    refine hg (mul_nonneg r2 (by linarith)) ?_
    refine le_trans ?_ ((r4 _ (le_max_left _ _) (le_max_right _ _)).trans (hlim _ (le_max_left _ _) (le_max_right _ _)))
    exact mul_le_of_le_one_right r2 (by linarith)
  have hpot : (radiationStep view B (some blk) t).pot = t.pot := (stamp_spec ht _).2.2.1
  have e : (conductorFlows (radiationStep view B (some blk) t)).flux =
      if |(radiationStep view B (some blk) t).pot 0 - (radiationStep view B (some blk) t).pot 1| <
          max ((radiationStep view B (some blk) t).pot 0) ((radiationStep view B (some blk) t).pot 1) * eps100 then 0
      else ((radiationStep view B (some blk) t).pot 0 - (radiationStep view B (some blk) t).pot 1) *
        (radiationStep view B (some blk) t).adm 0 := rfl
  rw [e, hpot, if_neg (not_lt.mpr hdead)]
  have ha : (radiationStep view B (some blk) t).adm 0 = g := hs.1
  rw [ha, hgv]
  linear_combination (1 - blk) * r1

/-- A link between 400 K and 300 K, with half a view of which half is blocked. -/
example : (conductorFlows (radiationStep (1 / 2) (567 / 10 ^ 10) (some (1 / 2))
    { (Two.zero (K := ℚ)) with pot := fun i => if i = 0 then 400 else 300 })).flux =
    (1 - 1 / 2) * (1 / 2 * (567 / 10 ^ 10) * (400 ^ 4 - 300 ^ 4)) := by decide +kernel

/-- At equal temperatures the conductance is the bare conductivity: neither the temperature nor the view counts, not even
a view of nothing. -/
theorem c68_equal (t : Two K) (view B : K) (h : t.pot 0 = t.pot 1) : radiationConductivity view B t = B := by
  refine if_neg ?_
  rw [h, sub_self, abs_zero]
  exact not_lt.mpr dblEps_pos.le

/-! ## Capacitor -/

private theorem sumHeat_eq (heat : Nat → K) : sumHeat heat = ∑ i ∈ range 15, heat i := by
  have : ∀ n, loop (fun i s => s + heat i) n (0 : K) = ∑ i ∈ range n, heat i := by
    intro n
    induction n with
    | zero => simp
    | succ n ih => rw [loop_succ, ih, Finset.sum_range_succ]
  exact this 15

private theorem cap_spec {t : Two K} {g0 : K} (ht : IsStamp g0 t.adm) {cap dt : K} (hdt : dblEps ≤ dt) (hc : dblEps < cap)
    (hz : t.pot 1 = 0) (heat : Nat → K) :
    let t' := heatCapacitorStep cap dt false heat t
    IsStamp (cap / dt) t'.adm ∧ t'.src 0 * dt = cap * t.pot 0 + dt * ∑ i ∈ range 15, heat i := by
  intro t'
  obtain ⟨u, hu⟩ : ∃ u, u = heatUpdate cap dt false heat t := ⟨_, rfl⟩
  have eu : u = { t with pot := t.pot.set 0 (t.pot 0 + sumHeat heat * dt / cap) } := by
    rw [hu]; exact if_pos ⟨hc, rfl⟩
  have hst : IsStamp g0 u.adm := by rw [eu]; exact ht
  have hE := dblEps_pos (K := K)
  have hdt0 : dt ≠ 0 := (lt_of_lt_of_le hE hdt).ne'
  have hc0 : cap ≠ 0 := (hE.trans hc).ne'
  obtain ⟨s1, s2, s3, -⟩ := stamp_spec hst (if dt < dblEps then cap / dblEps else cap / dt)
  rw [if_neg (not_lt.mpr hdt)] at s1 s2 s3
  have e : t' = { stamp (if dt < dblEps then cap / dblEps else cap / dt) u with
      src := ((stamp (if dt < dblEps then cap / dblEps else cap / dt) u).src.set 0
        (((stamp (if dt < dblEps then cap / dblEps else cap / dt) u).pot 0 -
          (stamp (if dt < dblEps then cap / dblEps else cap / dt) u).pot 1) *
          (stamp (if dt < dblEps then cap / dblEps else cap / dt) u).adm 0)).set 1
        (-((stamp (if dt < dblEps then cap / dblEps else cap / dt) u).src.set 0
          (((stamp (if dt < dblEps then cap / dblEps else cap / dt) u).pot 0 -
            (stamp (if dt < dblEps then cap / dblEps else cap / dt) u).pot 1) *
          (stamp (if dt < dblEps then cap / dblEps else cap / dt) u).adm 0)) 0) } := by
    rw [hu]; rfl
  rw [if_neg (not_lt.mpr hdt)] at e
  refine ⟨by rw [e]; exact s1, ?_⟩
  have es : t'.src 0 = (u.pot 0 - u.pot 1) * (cap / dt) := by
    have e2 : t'.src 0 = ((stamp (cap / dt) u).pot 0 - (stamp (cap / dt) u).pot 1) * (stamp (cap / dt) u).adm 0 := by
      rw [e]
      simp [Vect.set]
    rw [e2, s3, s1.1]
  rw [es, eu]
  simp only [Vect.set]
  rw [sumHeat_eq]
  simp only [if_true, one_ne_zero, if_false]
  rw [hz]
  field_simp
  ring

/-- Heat from elsewhere is stored: with `q` the heat that the other links bring to the node, a capacitor to ground gains
this heat and all the external heat of the step. -/
theorem c68_heat {t : Two K} {g0 : K} (ht : IsStamp g0 t.adm) {cap dt : K} (hdt : dblEps ≤ dt) (hc : dblEps < cap)
    (hz : t.pot 1 = 0) (heat : Nat → K) {T q : K}
    (hT : (heatCapacitorStep cap dt false heat t).adm 0 * T = (heatCapacitorStep cap dt false heat t).src 0 + q) :
    cap * (T - t.pot 0) = dt * (q + ∑ i ∈ range 15, heat i) := by
  obtain ⟨h1, h2⟩ := cap_spec ht hdt hc hz heat
  have hdt0 : dt ≠ 0 := (lt_of_lt_of_le dblEps_pos hdt).ne'
  rw [h1.1] at hT
  have h3 : cap * T = dt * ((heatCapacitorStep cap dt false heat t).src 0 + q) := by
    rw [← hT]; field_simp
  linear_combination h3 + h2

/-- A capacitor of 2000 J/K at 300 K with 15 heats of 10 W over one tenth of a second. -/
example : (heatCapacitorStep (K := ℚ) 2000 (1 / 10) false (fun _ => 10)
      { (Two.zero (K := ℚ)) with pot := fun i => if i = 0 then 300 else 0 }).adm 0 * (300 + 30 / 4000) =
    (heatCapacitorStep (K := ℚ) 2000 (1 / 10) false (fun _ => 10)
      { (Two.zero (K := ℚ)) with pot := fun i => if i = 0 then 300 else 0 }).src 0 + 0 := by decide +kernel

/-- External heat to a capacitor without capacitance or with a fixed temperature is lost. -/
theorem c68_heat_lost (t : Two K) (cap dt : K) (fixed : Bool) (h : cap ≤ dblEps ∨ fixed = true) (heat : Nat → K) :
    heatCapacitorStep cap dt fixed heat t = heatCapacitorStep cap dt fixed (fun _ => 0) t := by
  have hn : ¬ (cap > dblEps ∧ fixed = false) := by
    rintro ⟨a, b⟩
    rcases h with h | h
    · exact absurd a (not_lt.mpr h)
    · rw [h] at b; cases b
  have e1 : heatUpdate cap dt fixed heat t = t := if_neg hn
  have e2 : heatUpdate cap dt fixed (fun _ => 0) t = t := if_neg hn
  unfold heatCapacitorStep
  rw [e1, e2]

/-- A queue gives the same energy in a step as its values do, each over its part of the step; an empty queue leaves the
last flux. -/
theorem c68_queues (queues : Nat → HeatQueue K) (heat : Nat → K) (dt : K) {i : Nat} (hi : i < 15) :
    (queues i = [] → takeQueues queues heat i = heat i) ∧
    (queues i ≠ [] → takeQueues queues heat i * dt = ((queues i).map (fun q => q * (dt / (queues i).length))).sum) := by
  constructor
  · intro h
    exact if_neg (by rw [h]; exact fun c => absurd c.2 (lt_irrefl _))
  · intro h
    have hp : (queues i).length > 0 := List.length_pos_iff.mpr h
    have e : takeQueues queues heat i = average (queues i) := if_pos ⟨hi, hp⟩
    rw [e]
    unfold average
    rw [List.sum_map_mul_right, List.map_id', ← List.sum_eq_foldl]
    ring

/-! ## Two bodies that exchange radiation -/

/-- Two capacitors to ground and a radiation link between them. -/
structure c68Bodies (K : Type _) where
  a : Two K
  b : Two K
  r : Two K

/-- What a step is given. -/
structure c68Inputs (K : Type _) where
  dt : K
  view : K
  B : K
  blk : Option K
  heatA : Nat → K
  heatB : Nat → K

/-- The links after their step. -/
def c68Bodies.step (x : c68Inputs K) (ca cb : K) (s : c68Bodies K) : c68Bodies K :=
  { a := heatCapacitorStep ca x.dt false x.heatA s.a
    b := heatCapacitorStep cb x.dt false x.heatB s.b
    r := radiationStep x.view x.B x.blk s.r }

/-- The temperatures solve the equations of the two nodes. -/
def c68Bodies.solved (s : c68Bodies K) (TA TB : K) : Prop :=
  (s.a.adm 0 + s.r.adm 0) * TA + s.r.adm 1 * TB = s.a.src 0 ∧
  s.r.adm 2 * TA + (s.b.adm 0 + s.r.adm 3) * TB = s.b.src 0

/-- The links get the solution. -/
def c68Bodies.put (s : c68Bodies K) (TA TB : K) : c68Bodies K :=
  { a := { s.a with pot := fun i => if i = 0 then TA else 0 }
    b := { s.b with pot := fun i => if i = 0 then TB else 0 }
    r := { s.r with pot := fun i => if i = 0 then TA else TB } }

/-- States reached from the first one, with the inputs on the way. -/
inductive c68Run (ca cb : K) (s₀ : c68Bodies K) : List (c68Inputs K) → c68Bodies K → Prop
  | start : c68Run ca cb s₀ [] s₀
  | next {xs s x TA TB} : c68Run ca cb s₀ xs s → dblEps ≤ x.dt → (s.step x ca cb).solved TA TB →
      c68Run ca cb s₀ (xs ++ [x]) ((s.step x ca cb).put TA TB)

/-- Links as there are between steps: their matrices are stamps and the temperatures agree. -/
structure c68Good (s : c68Bodies K) : Prop where
  a : ∃ g, IsStamp g s.a.adm
  b : ∃ g, IsStamp g s.b.adm
  r : ∃ g, IsStamp g s.r.adm
  ground : s.a.pot 1 = 0 ∧ s.b.pot 1 = 0

/-- The heat stored. -/
def c68Stored (ca cb : K) (s : c68Bodies K) : K := ca * s.a.pot 0 + cb * s.b.pot 0

/-- The heat that came from elsewhere. -/
def c68Given (x : c68Inputs K) : K := x.dt * (∑ i ∈ range 15, x.heatA i + ∑ i ∈ range 15, x.heatB i)

private theorem two_step {ca cb : K} (ha : dblEps < ca) (hb : dblEps < cb) {s : c68Bodies K} (hs : c68Good s)
    {x : c68Inputs K} (hdt : dblEps ≤ x.dt) {TA TB : K} (h : (s.step x ca cb).solved TA TB) :
    c68Good ((s.step x ca cb).put TA TB) ∧ ∃ g, 0 ≤ g ∧
      ca * TA + x.dt * g * (TA - TB) = ca * s.a.pot 0 + x.dt * ∑ i ∈ range 15, x.heatA i ∧
      cb * TB + x.dt * g * (TB - TA) = cb * s.b.pot 0 + x.dt * ∑ i ∈ range 15, x.heatB i := by
  obtain ⟨ga, sa⟩ := hs.a
  obtain ⟨gb, sb⟩ := hs.b
  obtain ⟨gr, sr⟩ := hs.r
  obtain ⟨a1, a2⟩ := cap_spec sa hdt ha hs.ground.1 x.heatA
  obtain ⟨b1, b2⟩ := cap_spec sb hdt hb hs.ground.2 x.heatB
  obtain ⟨g, r1, r2, -⟩ := c23_stamp sr (radiationConductivity x.view x.B s.r) x.blk
  have hdt0 : x.dt ≠ 0 := (lt_of_lt_of_le dblEps_pos hdt).ne'
  refine ⟨⟨⟨_, a1⟩, ⟨_, b1⟩, ⟨_, r1⟩, ⟨rfl, rfl⟩⟩, g, r2, ?_, ?_⟩
  · have e : (ca / x.dt + g) * TA + -g * TB = (heatCapacitorStep ca x.dt false x.heatA s.a).src 0 := by
      have := h.1
      rw [show (s.step x ca cb).a.adm 0 = ca / x.dt from a1.1, show (s.step x ca cb).r.adm 0 = g from r1.1,
        show (s.step x ca cb).r.adm 1 = -g from r1.2.1] at this
      exact this
    have hx : ca / x.dt * x.dt = ca := div_mul_cancel₀ _ hdt0
    linear_combination x.dt * e + a2 - TA * hx
  · have e : -g * TA + (cb / x.dt + g) * TB = (heatCapacitorStep cb x.dt false x.heatB s.b).src 0 := by
      have := h.2
      rw [show (s.step x ca cb).b.adm 0 = cb / x.dt from b1.1, show (s.step x ca cb).r.adm 2 = -g from r1.2.2.1,
        show (s.step x ca cb).r.adm 3 = g from r1.2.2.2] at this
      exact this
    have hx : cb / x.dt * x.dt = cb := div_mul_cancel₀ _ hdt0
    linear_combination x.dt * e + b2 - TB * hx

/-- Through any number of steps with any views, blockages and external heat, the stored heat grows by exactly the external
heat. -/
theorem c68_energy {ca cb : K} (ha : dblEps < ca) (hb : dblEps < cb) {s₀ s : c68Bodies K} (h₀ : c68Good s₀)
    {xs : List (c68Inputs K)} (h : c68Run ca cb s₀ xs s) :
    c68Stored ca cb s = c68Stored ca cb s₀ + (xs.map c68Given).sum := by
  have key : c68Good s ∧ c68Stored ca cb s = c68Stored ca cb s₀ + (xs.map c68Given).sum := by
    induction h with
    | start => exact ⟨h₀, by simp⟩
    | next _ hdt hsol ih =>
      obtain ⟨k1, g, -, k2, k3⟩ := two_step ha hb ih.1 hdt hsol
      refine ⟨k1, ?_⟩
      rw [List.map_append, List.sum_append, ← add_assoc, ← ih.2]
      simp only [List.map_cons, List.map_nil, List.sum_cons, List.sum_nil, add_zero]
      unfold c68Stored c68Given
      simp only [c68Bodies.put, if_true]
      linear_combination k2 + k3
  exact key.2

/-- Without external heat, through any number of steps, the hotter body stays the hotter, their difference does not grow,
and both temperatures stay between the first ones. -/
theorem c68_second_law {ca cb : K} (ha : dblEps < ca) (hb : dblEps < cb) {s₀ s : c68Bodies K} (h₀ : c68Good s₀)
    (hab : s₀.b.pot 0 ≤ s₀.a.pot 0) {xs : List (c68Inputs K)} (hx : ∀ x ∈ xs, x.heatA = 0 ∧ x.heatB = 0)
    (h : c68Run ca cb s₀ xs s) :
    s.b.pot 0 ≤ s.a.pot 0 ∧ s.a.pot 0 - s.b.pot 0 ≤ s₀.a.pot 0 - s₀.b.pot 0 ∧ s.a.pot 0 ≤ s₀.a.pot 0 ∧
    s₀.b.pot 0 ≤ s.b.pot 0 := by
  have key : c68Good s ∧ (s.b.pot 0 ≤ s.a.pot 0 ∧ s.a.pot 0 - s.b.pot 0 ≤ s₀.a.pot 0 - s₀.b.pot 0 ∧
      s.a.pot 0 ≤ s₀.a.pot 0 ∧ s₀.b.pot 0 ≤ s.b.pot 0) := by
    induction h with
    | start => exact ⟨h₀, hab, le_rfl, le_rfl, le_rfl⟩
    | @next xs s x TA TB _ hdt hsol ih =>
      obtain ⟨i1, i2, i3, i4, i5⟩ := ih (fun y hy => hx y (List.mem_append_left _ hy))
      obtain ⟨k1, g, hg, k2, k3⟩ := two_step ha hb i1 hdt hsol
      obtain ⟨x1, x2⟩ := hx x (List.mem_append_right _ (List.mem_singleton.mpr rfl))
      rw [x1] at k2
      rw [x2] at k3
      simp only [Pi.zero_apply, Finset.sum_const_zero, mul_zero, add_zero] at k2 k3
      have hca : 0 < ca := dblEps_pos.trans ha
      have hcb : 0 < cb := dblEps_pos.trans hb
      have hdt0 : 0 < x.dt := lt_of_lt_of_le dblEps_pos hdt
      have hk : 0 ≤ x.dt * g := mul_nonneg hdt0.le hg
      obtain ⟨k, hkk⟩ : ∃ k, k = x.dt * g := ⟨_, rfl⟩
      rw [← hkk] at k2 k3 hk
      have hdiff : (TA - TB) * (1 + k / ca + k / cb) = s.a.pot 0 - s.b.pot 0 := by
        field_simp
        linear_combination cb * k2 - ca * k3
      have hden : 1 ≤ 1 + k / ca + k / cb := by
        have := div_nonneg hk hca.le
        have := div_nonneg hk hcb.le
        linarith
      have hd0 : 0 ≤ TA - TB := by
        by_contra hneg
        push Not at hneg
        have := mul_neg_of_neg_of_pos hneg (lt_of_lt_of_le one_pos hden)
        linarith
      have hd1 : TA - TB ≤ s.a.pot 0 - s.b.pot 0 := by
        rw [← hdiff]; exact le_mul_of_one_le_right hd0 hden
      have ha' : TA ≤ s.a.pot 0 := by
        have : ca * TA ≤ ca * s.a.pot 0 := by
          have := mul_nonneg hk hd0
          linarith
        exact le_of_mul_le_mul_left this hca
      have hb' : s.b.pot 0 ≤ TB := by
        have : cb * s.b.pot 0 ≤ cb * TB := by
          have := mul_nonneg hk hd0
          linarith
        exact le_of_mul_le_mul_left this hcb
      refine ⟨k1, ?_⟩
      show TB ≤ TA ∧ TA - TB ≤ _ ∧ TA ≤ _ ∧ _ ≤ TB
      exact ⟨by linarith, hd1.trans i3, ha'.trans i4, i5.trans hb'⟩
  exact key.2

/-- Two bodies at 400 K and 300 K. -/
def c68Start : c68Bodies ℚ :=
  { a := { (Two.zero (K := ℚ)) with pot := fun i => if i = 0 then 400 else 0 }
    b := { (Two.zero (K := ℚ)) with pot := fun i => if i = 0 then 300 else 0 }
    r := { (Two.zero (K := ℚ)) with pot := fun i => if i = 0 then 400 else 300 } }

/-- One second without external heat. -/
def c68Second : c68Inputs ℚ :=
  { dt := 1
    view := 1
    B := 1 / 1750000
    blk := none
    heatA := 0
    heatB := 0 }

/-- They are good links, and a step with 100 W/K between capacitances of 1000 J/K and 500 J/K takes them to 392.3 K
and 315.4 K. -/
example : c68Good c68Start ∧ ∃ s, c68Run 1000 500 c68Start [c68Second] s ∧ s.a.pot 0 = 5100 / 13 ∧ s.b.pot 0 = 4100 / 13 := by
  refine ⟨⟨⟨0, zero_isStamp⟩, ⟨0, zero_isStamp⟩, ⟨0, zero_isStamp⟩, rfl, rfl⟩, _,
    c68Run.next (TA := 5100 / 13) (TB := 4100 / 13) c68Run.start ?_ ?_, rfl, rfl⟩
  · show (dblEps : ℚ) ≤ 1
    decide +kernel
  · constructor <;> decide +kernel

/-! ## Sources -/

private theorem foldl_sum (l : List K) (a : K) : l.foldl (· + ·) a = a + l.sum := by
  induction l generalizing a with
  | nil => simp
  | cons x l ih => rw [List.foldl_cons, ih, List.sum_cons, add_assoc]

/-- An accepted source gives its ports together the flux, within 1.1 percent; exactly, where the fractions have the sum 1. No
port gets heat of the other sign. -/
theorem c68_source {ports : Nat} {fractions : List K} {demanded : K} (h : sourceValid ports fractions demanded = true)
    (flux : K) :
    (sourceTerms fractions flux).length = ports ∧
    |(sourceTerms fractions flux).sum - flux| ≤ 11 / 1000 * |flux| ∧
    (fractions.sum = 1 → (sourceTerms fractions flux).sum = flux) ∧
    (0 ≤ flux → ∀ q ∈ sourceTerms fractions flux, 0 ≤ q ∧ q ≤ flux) := by
  unfold sourceValid at h
  split_ifs at h with h1 h2 h3 h4 h5
  have hsum : (sourceTerms fractions flux).sum = fractions.sum * flux := by
    unfold sourceTerms
    rw [List.sum_map_mul_right, List.map_id']
  refine ⟨?_, ?_, ?_, ?_⟩
  · unfold sourceTerms
    rw [List.length_map]
    exact (not_not.mp h2).symm
  · rw [foldl_sum, zero_add] at h5
    have e : (sourceTerms fractions flux).sum - flux = -(1 - fractions.sum) * flux := by rw [hsum]; ring
    rw [e, abs_mul, abs_neg]
    exact mul_le_mul_of_nonneg_right (not_lt.mp h5) (abs_nonneg _)
  · intro h; rw [hsum, h, one_mul]
  · intro hf q hq
    obtain ⟨f, hfm, rfl⟩ := List.mem_map.mp hq
    have hf01 : 0 ≤ f ∧ f ≤ 1 := by
      by_contra hc
      exact h4 (List.any_eq_true.mpr ⟨f, hfm, decide_eq_true hc⟩)
    exact ⟨mul_nonneg hf01.1 hf, mul_le_of_le_one_left hf hf01.2⟩

/-- The override counts whether or not there is a blockage; a full blockage stops the rest. -/
theorem c68_source_flux (tuning demanded v : K) (blk : Option K) :
    sourceFlux tuning demanded (some v) blk = v ∧ sourceFlux tuning demanded none (some 1) = 0 ∧
    sourceFlux tuning demanded none none = tuning * demanded :=
  ⟨rfl, by show tuning * demanded * (1 - 1) = 0; ring, rfl⟩

/-- Accepted fractions need not have the sum 1: of 1000 W, 10 W may get lost. -/
theorem c68_source_lost : sourceValid 2 [1 / 2, (49 / 100 : ℚ)] 1000 = true ∧
    (sourceTerms [1 / 2, (49 / 100 : ℚ)] (sourceFlux 1 1000 none none)).sum = 990 := by
  constructor <;> decide +kernel

/-- A panel's first incident flux gives its configured heat back. -/
theorem c68_panel {absorptivity area demanded v : K} (h : panelIncident absorptivity area demanded = some (some v)) :
    panelFlux absorptivity area v = demanded := by
  unfold panelIncident at h
  split_ifs at h with h1 h2 h3
  · cases h
  have e : demanded / (absorptivity * area) = v := Option.some.inj (Option.some.inj h)
  rw [← e]
  exact mul_div_cancel₀ _ h3

/-- The checks accept a panel whose first incident flux is not a number. -/
theorem c68_panel_nan : panelIncident (0 : ℚ) 1 100 = some none ∧ panelIncident (1 : ℚ) 0 100 = some none := by
  constructor <;> decide +kernel

/-- A panel of several surfaces gathers what each of them does. -/
theorem c68_multi_panel (absorptivity view incident : Nat → K) (area : K) :
    multiPanelFlux absorptivity view incident area =
      ∑ i ∈ range 5, panelFlux (absorptivity i) (view i * area) (incident i) := by
  simp only [multiPanelFlux, panelFlux, Finset.sum_range_succ, Finset.sum_range_zero, loop_succ, loop_zero]
  ring

/-! ## Thermoelectric effect -/

/-- A quadratic function of the temperature. -/
def c68Quadratic (a b c T : K) : K := a + b * T + c * T ^ 2

private theorem quadratic_integral (a b c x y : ℝ) :
    ∫ T in x..y, c68Quadratic a b c T = a * (y - x) + b * ((y ^ 2 - x ^ 2) / 2) + c * ((y ^ 3 - x ^ 3) / 3) := by
  unfold c68Quadratic
  rw [intervalIntegral.integral_add, intervalIntegral.integral_add, intervalIntegral.integral_const,
    intervalIntegral.integral_const_mul, intervalIntegral.integral_const_mul, integral_id, integral_pow, smul_eq_mul]
  · push_cast; ring
  all_goals apply Continuous.intervalIntegrable; fun_prop

private theorem heat_integral (b c x y : ℝ) :
    ∫ T in x..y, T * (b + 2 * c * T) = b * ((y ^ 2 - x ^ 2) / 2) + 2 * c * ((y ^ 3 - x ^ 3) / 3) := by
  have e : ∀ T : ℝ, T * (b + 2 * c * T) = c68Quadratic 0 b (2 * c) T := fun T => by unfold c68Quadratic; ring
  simp only [e]
  rw [quadratic_integral]
  ring

/-- The strength of the thermoelectric effects. -/
def c68Scale (scalar : Option K) : K := (scalar.map (max 0)).getD 1

private theorem limit_mem {l x u : K} (h : l ≤ x ∧ x ≤ u) : limitRange l x u = x := by
  unfold limitRange
  rw [min_eq_left h.2, max_eq_left h.1]

private theorem update_spec (p : Peltier K) (scalar : Option K) (I : K) {hot cold : K} (hh : p.low ≤ hot ∧ hot ≤ p.high)
    (hc : p.low ≤ cold ∧ cold ≤ p.high) (hd : dblEps < |hot - cold|) :
    let o := p.update scalar I hot cold
    o.conductance * (hot - cold) = p.k0 * (hot - cold) + p.k1 * ((hot ^ 2 - cold ^ 2) / 2) + p.k2 * ((hot ^ 3 - cold ^ 3) / 3) ∧
    o.thru = o.conductance * (hot - cold) ∧
    o.voltage = c68Scale scalar *
      (p.s0 * (hot - cold) + p.s1 * ((hot ^ 2 - cold ^ 2) / 2) + p.s2 * ((hot ^ 3 - cold ^ 3) / 3)) ∧
    o.heatHot = I * I / o.electrical / 2 - I * hot * (c68Quadratic p.s0 p.s1 p.s2 hot * c68Scale scalar) ∧
    o.heatCold = I * I / o.electrical / 2 + I * cold * (c68Quadratic p.s0 p.s1 p.s2 cold * c68Scale scalar) ∧
    o.electrical = 1 / max (p.r0 + p.r1 * ((hot + cold) / 2)) dblEps := by
  intro o
  have hne : hot - cold ≠ 0 := by
    intro h; rw [h, abs_zero] at hd
    exact absurd hd (not_lt.mpr dblEps_pos.le)
  have l1 := limit_mem hh
  have l2 := limit_mem hc
  have hs : (match scalar with | some s => max 0 s | none => (1 : K)) = c68Scale scalar := by
    cases scalar <;> rfl
  refine ⟨?_, ?_, ?_, ?_, ?_, ?_⟩
  · show (if |limitRange p.low hot p.high - limitRange p.low cold p.high| > dblEps then _ else _) * _ = _
    rw [l1, l2, if_pos hd]
    field_simp
    ring
  · rfl
  · show ((if |limitRange p.low hot p.high - limitRange p.low cold p.high| > dblEps then _ else _) *
      (match scalar with | some s => max 0 s | none => (1 : K))) * _ = _
    rw [l1, l2, if_pos hd, hs]
    field_simp
    ring
  · have e : o.heatHot = I * I / o.electrical / 2 - I * limitRange p.low hot p.high * ((p.s0 + p.s1 * limitRange p.low hot p.high +
        p.s2 * limitRange p.low hot p.high * limitRange p.low hot p.high) * c68Scale scalar) := by cases scalar <;> rfl
    rw [e, l1]
    unfold c68Quadratic
    ring
  · have e : o.heatCold = I * I / o.electrical / 2 + I * limitRange p.low cold p.high * ((p.s0 + p.s1 * limitRange p.low cold p.high +
        p.s2 * limitRange p.low cold p.high * limitRange p.low cold p.high) * c68Scale scalar) := by cases scalar <;> rfl
    rw [e, l2]
    unfold c68Quadratic
    ring
  · show 1 / max (_ + _ * (1 / 2 * (limitRange p.low cold p.high + limitRange p.low hot p.high))) dblEps = _
    rw [l1, l2]
    congr 3
    ring

/-- A configuration of the device whose Seebeck coefficient grows with the temperature. -/
def c68Config : PeltierConfig ℚ :=
  { count := 127
    geometry := 1 / 1000
    rho0 := 1 / 100000
    rho1 := 0
    seebeck0 := 1 / 10000
    seebeck1 := 1 / 1000000
    seebeck2 := 0
    cond0 := 1
    cond1 := 1 / 100
    cond2 := 0
    plate := 1 / 10
    low := 200
    high := 400 }

/-- The voltage is the integral of the Seebeck coefficient between the two temperatures, and the heat that flows through is
that of the conductivity. -/
theorem c68_peltier (p : Peltier ℝ) (scalar : Option ℝ) (I : ℝ) {hot cold : ℝ} (hh : p.low ≤ hot ∧ hot ≤ p.high)
    (hc : p.low ≤ cold ∧ cold ≤ p.high) (hd : dblEps < |hot - cold|) :
    (p.update scalar I hot cold).voltage = c68Scale scalar * ∫ T in cold..hot, c68Quadratic p.s0 p.s1 p.s2 T ∧
    (p.update scalar I hot cold).thru = ∫ T in cold..hot, c68Quadratic p.k0 p.k1 p.k2 T := by
  obtain ⟨a1, a2, a3, -⟩ := update_spec p scalar I hh hc hd
  rw [quadratic_integral, quadratic_integral]
  exact ⟨a3, a2.trans a1⟩

/-- Temperatures that meet the conditions. -/
example : c68Config.low ≤ 350 ∧ 350 ≤ c68Config.high ∧ c68Config.low ≤ 300 ∧ 300 ≤ c68Config.high ∧
    (dblEps : ℚ) < |350 - 300| ∧ (c68Config.make.update none (-2) 350 300).voltage = 254 / 10000 * 50 + 254 / 1000000 * 16250 := by
  refine ⟨?_, ?_, ?_, ?_, ?_, ?_⟩ <;> decide +kernel

/-- The couples of a device are in series electrically and side by side for heat: with N couples of geometry factor G, the resistance is 2N/G
times the resistivity at the mean temperature (at least DBL_EPSILON), the voltage 2N times that of a leg whatever G, and the heat that goes
through, without end plates, 2NG times that of the conductivity. -/
theorem c68_couples (c : PeltierConfig ℝ) (scalar : Option ℝ) (I : ℝ) {hot cold : ℝ} (hh : c.low ≤ hot ∧ hot ≤ c.high)
    (hc : c.low ≤ cold ∧ cold ≤ c.high) (hd : dblEps < |hot - cold|) :
    let o := c.make.update scalar I hot cold
    o.electrical * max (2 * c.count * (c.rho0 + c.rho1 * ((hot + cold) / 2)) / c.geometry) dblEps = 1 ∧
    o.voltage = c68Scale scalar * (2 * c.count * ∫ T in cold..hot, c68Quadratic c.seebeck0 c.seebeck1 c.seebeck2 T) ∧
    (c.plate ≤ dblEps → o.thru = 2 * c.count * c.geometry * ∫ T in cold..hot, c68Quadratic c.cond0 c.cond1 c.cond2 T) := by
  intro o
  obtain ⟨h1, h2⟩ := c68_peltier c.make scalar I hh hc hd
  have hq : ∀ r a b d : ℝ, ∫ T in cold..hot, c68Quadratic (r * a) (r * b) (r * d) T = r * ∫ T in cold..hot, c68Quadratic a b d T := by
    intro r a b d
    rw [← intervalIntegral.integral_const_mul]
    congr 1
    funext T
    unfold c68Quadratic
    ring
  refine ⟨?_, ?_, ?_⟩
  · have e : o.electrical = 1 / max (c.make.r0 + c.make.r1 * (1 / 2 * (limitRange c.low cold c.high + limitRange c.low hot c.high))) dblEps := rfl
    have e1 : limitRange c.low cold c.high = cold := by
      unfold limitRange
      rw [min_eq_left hc.2, max_eq_left hc.1]
    have e2 : limitRange c.low hot c.high = hot := by
      unfold limitRange
      rw [min_eq_left hh.2, max_eq_left hh.1]
    have e3 : c.make.r0 + c.make.r1 * (1 / 2 * (cold + hot)) = 2 * c.count * (c.rho0 + c.rho1 * ((hot + cold) / 2)) / c.geometry := by
      show 2 * c.count * c.rho0 / c.geometry + 2 * c.count * c.rho1 / c.geometry * (1 / 2 * (cold + hot)) = _
      ring
    rw [e, e1, e2, e3]
    have : (0 : ℝ) < max (2 * c.count * (c.rho0 + c.rho1 * ((hot + cold) / 2)) / c.geometry) dblEps := lt_max_of_lt_right dblEps_pos
    rw [one_div, inv_mul_cancel₀ this.ne']
  · have e := hq (2 * c.count) c.seebeck0 c.seebeck1 c.seebeck2
    rw [← e]
    exact h1
  · intro hp
    have e := hq (2 * c.count * c.geometry) c.cond0 c.cond1 c.cond2
    rw [← e]
    have hk : c.make.k0 = 2 * c.count * c.geometry * c.cond0 := if_neg (not_lt.mpr hp)
    rw [hk] at h2
    exact h2

/-- The energy of the device: the heat to both sides and the electric power given (that of the voltage less the loss) are
together what the change of the Seebeck coefficient between the two temperatures takes, which the code leaves out. -/
theorem c68_balance (p : Peltier ℝ) (scalar : Option ℝ) (I : ℝ) {hot cold : ℝ} (hh : p.low ≤ hot ∧ hot ≤ p.high)
    (hc : p.low ≤ cold ∧ cold ≤ p.high) (hd : dblEps < |hot - cold|) :
    let o := p.update scalar I hot cold
    o.heatHot + o.heatCold + (I * o.voltage - I * I / o.electrical) =
      -(I * c68Scale scalar * ∫ T in cold..hot, T * (p.s1 + 2 * p.s2 * T)) := by
  intro o
  obtain ⟨-, -, a3, a4, a5, -⟩ := update_spec p scalar I hh hc hd
  rw [heat_integral, a3, a4, a5]
  unfold c68Quadratic
  ring

/-- With a constant Seebeck coefficient there is no such rest: energy is kept. -/
theorem c68_balance_constant (p : Peltier K) (scalar : Option K) (I : K) {hot cold : K} (hh : p.low ≤ hot ∧ hot ≤ p.high)
    (hc : p.low ≤ cold ∧ cold ≤ p.high) (hd : dblEps < |hot - cold|) (h1 : p.s1 = 0) (h2 : p.s2 = 0) :
    let o := p.update scalar I hot cold
    o.heatHot + o.heatCold + (I * o.voltage - I * I / o.electrical) = 0 := by
  intro o
  obtain ⟨-, -, a3, a4, a5, -⟩ := update_spec p scalar I hh hc hd
  rw [a3, a4, a5, h1, h2]
  unfold c68Quadratic
  ring

/-- An accepted configuration whose device makes energy: 8.255 W appear from nothing at 2 A and 350 K to 300 K. -/
theorem c68_unbalanced : c68Config.valid = true ∧
    (let o := c68Config.make.update none (-2) 350 300
     o.heatHot + o.heatCold + (-2 * o.voltage - -2 * -2 / o.electrical) = 8255 / 1000) := by
  constructor <;> decide +kernel

/-- Between plates, the conductance of a device with a constant conductivity is at most that of the two plates in series, and
at most that without plates. -/
theorem c68_plates {c : PeltierConfig K} (hv : c.valid = true) (hk : 0 < c.cond0) (h1 : c.cond1 = 0) (h2 : c.cond2 = 0)
    (hp : dblEps < c.plate) (scalar : Option K) (I hot cold : K) :
    let G := (c.make.update scalar I hot cold).conductance
    let G₀ := ({ c with plate := 0 }.make.update scalar I hot cold).conductance
    0 < G ∧ G ≤ c.plate / 2 ∧ G ≤ G₀ ∧ 1 / G = 1 / G₀ + 2 / c.plate := by
  intro G G₀
  obtain ⟨k, hkd⟩ : ∃ k, k = 2 * c.count * c.geometry * c.cond0 := ⟨_, rfl⟩
  have hk0 : 0 < k := by
    unfold PeltierConfig.valid at hv
    split_ifs at hv with v1 v2
    rw [hkd]
    have a : 0 < c.count := lt_of_lt_of_le (by norm_num) (not_lt.mp v1)
    have b : 0 < c.geometry := lt_of_lt_of_le dblEps_pos (not_lt.mp v2)
    positivity
  have hpl : 0 < c.plate := dblEps_pos.trans hp
  have flat : ∀ p : Peltier K, p.k1 = 0 → p.k2 = 0 → (p.update scalar I hot cold).conductance = p.k0 := by
    intro p e1 e2
    show (if |limitRange p.low hot p.high - limitRange p.low cold p.high| > dblEps then _ else _) = _
    rw [e1, e2]
    split_ifs
    · ring
    · rfl
  have eG : G = 1 / (1 / k + 2 / c.plate) := by
    rw [hkd]
    have := flat c.make (by show 2 * c.count * c.geometry * c.cond1 = 0; rw [h1, mul_zero])
      (by show 2 * c.count * c.geometry * c.cond2 = 0; rw [h2, mul_zero])
    refine this.trans ?_
    have e : c.make.k0 = _ := if_pos hp
    rw [e, if_neg (hkd ▸ hk0.ne')]
  have eG0 : G₀ = k := by
    rw [hkd]
    refine (flat { c with plate := 0 }.make ?_ ?_).trans ?_
    · show 2 * c.count * c.geometry * c.cond1 = 0; rw [h1, mul_zero]
    · show 2 * c.count * c.geometry * c.cond2 = 0; rw [h2, mul_zero]
    · exact if_neg (not_lt.mpr dblEps_pos.le)
  rw [eG, eG0]
  have a : 0 < 1 / k := one_div_pos.mpr hk0
  have b : 0 < 2 / c.plate := div_pos two_pos hpl
  refine ⟨one_div_pos.mpr (add_pos a b), ?_, ?_, ?_⟩
  · have := one_div_le_one_div_of_le b (le_add_of_nonneg_left a.le : 2 / c.plate ≤ 1 / k + 2 / c.plate)
    rwa [one_div_div] at this
  · have := one_div_le_one_div_of_le a (le_add_of_nonneg_right b.le : 1 / k ≤ 1 / k + 2 / c.plate)
    rwa [one_div_one_div] at this
  · rw [one_div_one_div]

/-- Such a configuration. -/
example : ({ c68Config with cond1 := 0 }).valid = true ∧ (0 : ℚ) < c68Config.cond0 ∧ dblEps < c68Config.plate := by
  refine ⟨?_, ?_, ?_⟩ <;> decide +kernel

/-- Where the conductivity changes with the temperature, the plates are left out of that part: the device conducts more than
its plates would by themselves. -/
theorem c68_plates_exceeded : c68Config.plate / 2 < (c68Config.make.update none 0 350 300).conductance := by
  decide +kernel

/-- At equal temperatures only the constant terms count, so the conductance jumps there: here from more than 0.8 to less
than 0.05. -/
theorem c68_jump : (c68Config.make.update none 0 300 300).conductance < 5 / 100 ∧
    8 / 10 < (c68Config.make.update none 0 (300 + 1 / 1000000) 300).conductance := by
  constructor <;> decide +kernel

/-- The device's step: its conductance, with the blockage and between the limits, and its heat to both sides at the
temperatures of the links; with the next solution, what leaves one side and what enters the other differ by that heat. -/
theorem c68_device {t : Two K} {g0 : K} (ht : IsStamp g0 t.adm) (p : Peltier K) (scalar : Option K) (I : K)
    (blk : Option K) :
    let o := p.update scalar I (t.pot 0) (t.pot 1)
    let t' := deviceStep p scalar I blk t
    ∃ g, IsStamp g t'.adm ∧ 0 ≤ g ∧ g ≤ 10 ^ 15 ∧
      (0 ≤ unblocked o.conductance blk → unblocked o.conductance blk ≤ 10 ^ 15 → g = unblocked o.conductance blk) ∧
      t'.src 0 = o.heatHot ∧ t'.src 1 = o.heatCold ∧ t'.pot = t.pot ∧
      ∀ T0 T1, (t'.src 0 - (t'.adm 0 * T0 + t'.adm 1 * T1)) + (t'.src 1 - (t'.adm 2 * T0 + t'.adm 3 * T1)) =
        o.heatHot + o.heatCold := by
  intro o t'
  obtain ⟨g, a1, a2, a3, a4, -⟩ := c23_stamp ht o.conductance blk
  have s0 : t'.src 0 = o.heatHot := rfl
  have s1 : t'.src 1 = o.heatCold := rfl
  have b1 : IsStamp g t'.adm := a1
  refine ⟨g, b1, a2, a3, a4, s0, s1, (stamp_spec ht _).2.2.1, fun T0 T1 => ?_⟩
  rw [s0, s1, b1.1, b1.2.1, b1.2.2.1, b1.2.2.2]
  ring

end Gunns.Props
