import Verif.Props.Elements
import Verif.Props.Assembly

/-!
# Kirchhoff's current law for solved linear networks (C25)
-/

set_option linter.unusedSectionVars false

namespace Gunns.Props
open Gunns.Elements Gunns.Spec Finset

variable {K : Type _} [Field K] [LinearOrder K] [IsStrictOrderedRing K]

/-- The kinds of basic linear links with what drives their step. -/
inductive Kind (K : Type _)
  | conductor (eff : K) (blk : Option K)
  | capacitor (cap dt : K)
  | source (demand : K) (blk : Option K)
  | potential (eff : K) (blk : Option K) (rise : K)

/-- A link placed between two nodes, with the state it had before its step. -/
structure Placed (K : Type _) where
  kind : Kind K
  before : Two K
  node0 : Nat
  node1 : Nat

/-- The state left by earlier steps of the same link: a stamp, no sources for a conductor, no
conductance for a source. -/
def Placed.Sound (N : Nat) (e : Placed K) : Prop :=
  e.node0 ≤ N ∧ e.node1 ≤ N ∧
  (∃ g, IsStamp g e.before.adm ∧ match e.kind with
    | .conductor _ _ => e.before.src 0 = 0 ∧ e.before.src 1 = 0
    | .capacitor cap _ => 0 ≤ cap
    | .source _ _ => g = 0
    | .potential _ _ _ => True)

/-- The link's step. -/
def Placed.stepped (e : Placed K) : Two K :=
  match e.kind with
  | .conductor eff blk => conductorStep eff blk e.before
  | .capacitor cap dt => capacitorStep cap dt e.before
  | .source demand blk => sourceStep demand blk e.before
  | .potential eff blk rise => potentialStep eff blk rise e.before

/-- What the solver sees. -/
def Placed.view (N : Nat) (e : Placed K) : LinkView K where
  ports := 2
  nodeMap p := if p = 0 then e.node0 else e.node1
  adm := e.stepped.adm
  mapSize := 4
  map := updateAdmittanceMap N 2 (fun p => if p = 0 then e.node0 else e.node1) (fun _ => -1)
  src := e.stepped.src

/-- Potential of a node: ground is zero. -/
def nodePotential (N : Nat) (x : Nat → K) (n : Nat) : K := if n < N then x n else 0

/-- The flux the link reports for solved node potentials `x`, positive from its port 0 to its
port 1. -/
def Placed.flux (N : Nat) (x : Nat → K) (e : Placed K) : K :=
  let t := { e.stepped with
    pot := fun p => if p = 0 then nodePotential N x e.node0 else nodePotential N x e.node1 }
  match e.kind with
  | .conductor _ _ => (conductorFlows t).flux
  | .capacitor _ _ => (sourcedFlows t).flux
  | .source _ _ => (sourceFlows t).flux
  | .potential _ _ _ => (sourcedFlows t).flux

/-- Flux the link takes out of node `i`. -/
def Placed.outOf (N : Nat) (x : Nat → K) (i : Nat) (e : Placed K) : K :=
  (if e.node0 = i then e.flux N x else 0) - (if e.node1 = i then e.flux N x else 0)

/-- How far the dead band of a conductor at node `i` can move its flux. -/
def Placed.slack (N : Nat) (x : Nat → K) (i : Nat) (e : Placed K) : K :=
  match e.kind with
  | .conductor _ _ =>
    if e.node0 = i ∨ e.node1 = i then
      e.stepped.adm 0 * (100 * (1 / 2 ^ 52) *
        max 0 (max (nodePotential N x e.node0) (nodePotential N x e.node1)))
    else 0
  | _ => 0

/-- The conductance to ground that conditioning gives node `i`: only when the node's row sums to
(nearly) zero, that is when nothing connects it to ground directly. -/
def leak (N : Nat) (A : Nat → Nat → K) (i : Nat) : K :=
  if |rowSum N A i| < 1 / 2 ^ 52 then max (A i i) (1 / 2 ^ 52) / 10 ^ 15 else 0

/-- Bound on the factorisation error for a pair of different nodes. -/
def truncation (B : Nat → Nat → K) (i j : Nat) : K :=
  1 / 10 ^ 100 * (1 + ∑ k ∈ range (min i j), (|B (max i j) k * B k k| + |B (min i j) k|))

/-! ## Each link -/

theorem stepped_facts {N : Nat} {e : Placed K} (h : e.Sound N) :
    ∃ g, IsStamp g e.stepped.adm ∧ 0 ≤ g ∧ e.stepped.src 1 = -e.stepped.src 0 ∧
      ∀ x, |e.flux N x - (g * (nodePotential N x e.node0 - nodePotential N x e.node1) - e.stepped.src 0)|
        ≤ match e.kind with
          | .conductor _ _ => g * (100 * (1 / 2 ^ 52) *
              max 0 (max (nodePotential N x e.node0) (nodePotential N x e.node1)))
          | _ => 0 := by
  obtain ⟨kind, t, n0, n1⟩ := e
  obtain ⟨h0, h1, g0, hg0, hk⟩ := h
  have hE : (0 : K) < 1 / 2 ^ 52 := by positivity
  cases kind with
  | conductor eff blk =>
    dsimp only at hk hg0
    obtain ⟨g, hg, hn, _⟩ := c23_stamp hg0 eff blk
    have hsrc : (conductorStep eff blk t).src = t.src := (stamp_spec hg0 _).2.1
    refine ⟨g, hg, hn, ?_, ?_⟩
    · show (conductorStep eff blk t).src 1 = -(conductorStep eff blk t).src 0
      rw [hsrc, hk.1, hk.2, neg_zero]
    · intro x
      have hz : (conductorStep eff blk t).src 0 = 0 := by rw [hsrc, hk.1]
      have hf := (c23_flux (t := { conductorStep eff blk t with
        pot := fun p => if p = 0 then nodePotential N x n0 else nodePotential N x n1 }) hg hn).2.2.2.1
      have e1 : Placed.flux N x ⟨.conductor eff blk, t, n0, n1⟩ = (conductorFlows
        { conductorStep eff blk t with
          pot := fun p => if p = 0 then nodePotential N x n0 else nodePotential N x n1 }).flux := rfl
      have e2 : (Placed.stepped ⟨.conductor eff blk, t, n0, n1⟩).src 0 = 0 := hz
      dsimp only at hf ⊢
      rw [e1, e2, sub_zero]
      simp only [if_true, one_ne_zero, if_false] at hf
      rcases hf with hf | hf
      · rw [hf, sub_self, abs_zero]
        exact mul_nonneg hn (mul_nonneg (by positivity) (le_max_left _ _))
      · rw [hf.1, zero_sub, abs_neg, abs_mul, abs_of_nonneg hn]
        refine mul_le_mul_of_nonneg_left (hf.2.le.trans ?_) hn
        exact mul_le_mul_of_nonneg_left (le_max_right _ _) (by positivity)
  | capacitor cap dt =>
    dsimp only at hk hg0
    obtain ⟨s1, s2, _, _, _, _⟩ := c24_step hg0 cap dt 0 0
    refine ⟨cap / max dt (1 / 2 ^ 52), s1, div_nonneg hk (hE.le.trans (le_max_right _ _)), ?_, ?_⟩
    · show (capacitorStep cap dt t).src 1 = -(capacitorStep cap dt t).src 0
      linarith
    · intro x
      have e1 : Placed.flux N x ⟨.capacitor cap dt, t, n0, n1⟩ =
        (nodePotential N x n0 - nodePotential N x n1) * (capacitorStep cap dt t).adm 0 -
          (capacitorStep cap dt t).src 0 := rfl
      have e2 : (Placed.stepped ⟨.capacitor cap dt, t, n0, n1⟩).src 0 = (capacitorStep cap dt t).src 0 := rfl
      dsimp only
      rw [e1, e2, s1.1, mul_comm, sub_self, abs_zero]
  | source demand blk =>
    dsimp only at hk hg0
    subst hk
    refine ⟨0, hg0, le_rfl, ?_, ?_⟩
    · show (sourceStep demand blk t).src 1 = -(sourceStep demand blk t).src 0
      unfold sourceStep
      simp [Vect.set]
    · intro x
      have e1 : Placed.flux N x ⟨.source demand blk, t, n0, n1⟩ = (sourceStep demand blk t).flux := rfl
      have e2 : (Placed.stepped ⟨.source demand blk, t, n0, n1⟩).src 0 = -(sourceStep demand blk t).flux := by
        show (sourceStep demand blk t).src 0 = _
        unfold sourceStep
        simp [Vect.set]
      dsimp only
      rw [e1, e2]
      simp
  | potential eff blk rise =>
    dsimp only at hg0
    obtain ⟨g, hg, hn, _⟩ := c23_stamp hg0 eff blk
    refine ⟨g, hg, hn, ?_, ?_⟩
    · show (potentialStep eff blk rise t).src 1 = -(potentialStep eff blk rise t).src 0
      unfold potentialStep
      simp [Vect.set]
    · intro x
      have hadm : (potentialStep eff blk rise t).adm 0 = g := hg.1
      have e1 : Placed.flux N x ⟨.potential eff blk rise, t, n0, n1⟩ =
        (nodePotential N x n0 - nodePotential N x n1) * (potentialStep eff blk rise t).adm 0 -
          (potentialStep eff blk rise t).src 0 := rfl
      have e2 : (Placed.stepped ⟨.potential eff blk rise, t, n0, n1⟩).src 0 =
        (potentialStep eff blk rise t).src 0 := rfl
      dsimp only
      rw [e1, e2, hadm, mul_comm, sub_self, abs_zero]

theorem view_mapped {N : Nat} {e : Placed K} (h : e.Sound N) : (e.view N).Mapped N := by
  refine ⟨rfl, ?_, ⟨_, rfl⟩⟩
  intro p _
  show (if p = 0 then e.node0 else e.node1) ≤ N
  split_ifs
  · exact h.1
  · exact h.2.1

theorem view_mat {N : Nat} {e : Placed K} {g : K} (h : IsStamp g e.stepped.adm) :
    (e.view N).element.mat 0 0 = g ∧ (e.view N).element.mat 0 1 = -g ∧
    (e.view N).element.mat 1 0 = -g ∧ (e.view N).element.mat 1 1 = g :=
  ⟨h.1, h.2.1, h.2.2.1, h.2.2.2⟩

theorem view_conductive {N : Nat} {e : Placed K} (h : e.Sound N) : (e.view N).element.Conductive := by
  obtain ⟨g, hg, hn, _⟩ := stepped_facts h
  obtain ⟨m00, m01, m10, m11⟩ := view_mat (N := N) hg
  have h2 : (e.view N).element.ports = 2 := rfl
  refine ⟨?_, ?_, ?_⟩
  · intro p q hp hq
    rw [h2] at hp hq
    interval_cases p <;> interval_cases q
    · rfl
    · rw [m01, m10]
    · rw [m01, m10]
    · rfl
  · intro p q hp hq hpq
    rw [h2] at hp hq
    interval_cases p <;> interval_cases q
    · exact (hpq rfl).elim
    · rw [m01]; linarith
    · rw [m10]; linarith
    · exact (hpq rfl).elim
  · intro p hp
    rw [h2] at hp ⊢
    rw [sum_range_succ, sum_range_one]
    interval_cases p
    · rw [m00, m01]; linarith
    · rw [m10, m11]; linarith

/-- The link's own share of the node equation is the flux it takes out of the node. -/
theorem view_equation {N : Nat} {e : Placed K} (h : e.Sound N) (x : Nat → K) (i : Nat) :
    |e.outOf N x i - ((∑ j ∈ range N, (e.view N).element.stamp i j * x j) - (e.view N).element.source i)|
      ≤ e.slack N x i := by
  obtain ⟨g, hg, hn, hs, hfl⟩ := stepped_facts h
  obtain ⟨m00, m01, m10, m11⟩ := view_mat (N := N) hg
  set p0 := nodePotential N x e.node0 with hp0
  set p1 := nodePotential N x e.node1 with hp1
  set s := e.stepped.src 0 with hs0
  have h2 : (e.view N).element.ports = 2 := rfl
  have hn0 : (e.view N).element.node 0 = e.node0 := rfl
  have hn1 : (e.view N).element.node 1 = e.node1 := rfl
  have pick : ∀ (n : Nat) (c : K), ∑ j ∈ range N, (if n = j then c else 0) * x j = c * nodePotential N x n := by
    intro n c
    unfold nodePotential
    have : ∀ j ∈ range N, (if n = j then c else 0) * x j = if n = j then c * x n else 0 := by
      intro j _
      split_ifs with e
      · rw [e]
      · rw [zero_mul]
    rw [sum_congr rfl this, sum_ite_eq]
    simp only [mem_range]
    split_ifs
    · rfl
    · rw [mul_zero]
  have eA : ∑ j ∈ range N, (e.view N).element.stamp i j * x j =
      (if e.node0 = i then g * (p0 - p1) else 0) - (if e.node1 = i then g * (p0 - p1) else 0) := by
    have : ∀ j ∈ range N, (e.view N).element.stamp i j * x j =
        ((if e.node0 = j then (if e.node0 = i then g else 0) else 0) * x j +
         (if e.node1 = j then (if e.node0 = i then -g else 0) else 0) * x j) +
        ((if e.node0 = j then (if e.node1 = i then -g else 0) else 0) * x j +
         (if e.node1 = j then (if e.node1 = i then g else 0) else 0) * x j) := by
      intro j _
      unfold Element.stamp
      rw [h2, sum_range_succ, sum_range_one, sum_range_succ, sum_range_one, sum_range_succ,
        sum_range_one, hn0, hn1, m00, m01, m10, m11]
      have c : ∀ (P Q : Prop) [Decidable P] [Decidable Q] (a : K),
          (if P ∧ Q then a else 0) = if Q then (if P then a else 0) else 0 := by
        intro P Q _ _ a
        by_cases hP : P <;> by_cases hQ : Q <;> simp [hP, hQ]
      rw [c, c, c, c]
      ring
    rw [sum_congr rfl this, sum_add_distrib, sum_add_distrib, sum_add_distrib, pick, pick, pick, pick,
      ← hp0, ← hp1]
    split_ifs <;> ring
  have eS : (e.view N).element.source i = (if e.node0 = i then s else 0) - (if e.node1 = i then s else 0) := by
    unfold Element.source
    rw [h2, sum_range_succ, sum_range_one, hn0, hn1]
    show (if e.node0 = i then e.stepped.src 0 else 0) + (if e.node1 = i then e.stepped.src 1 else 0) = _
    rw [hs]
    split_ifs <;> ring
  rw [eA, eS]
  have hf := hfl x
  unfold Placed.outOf Placed.slack
  rw [← hp0, ← hp1]
  have key : ∀ b : K, |e.flux N x - (g * (p0 - p1) - s)| ≤ b → 0 ≤ b →
      |((if e.node0 = i then e.flux N x else 0) - (if e.node1 = i then e.flux N x else 0)) -
        (((if e.node0 = i then g * (p0 - p1) else 0) - (if e.node1 = i then g * (p0 - p1) else 0)) -
         ((if e.node0 = i then s else 0) - (if e.node1 = i then s else 0)))| ≤
      if e.node0 = i ∨ e.node1 = i then b else 0 := by
    intro b hb hb0
    by_cases a0 : e.node0 = i <;> by_cases a1 : e.node1 = i
    · simp only [a0, a1, if_true, or_self]
      have : (e.flux N x - e.flux N x) - ((g * (p0 - p1) - g * (p0 - p1)) - (s - s)) = 0 := by ring
      rw [this, abs_zero]; exact hb0
    · simp only [a0, a1, if_true, if_false, true_or]
      have : (e.flux N x - 0) - ((g * (p0 - p1) - 0) - (s - 0)) = e.flux N x - (g * (p0 - p1) - s) := by ring
      rw [this]; exact hb
    · simp only [a0, a1, if_true, if_false, or_true]
      have : (0 - e.flux N x) - ((0 - g * (p0 - p1)) - (0 - s)) = -(e.flux N x - (g * (p0 - p1) - s)) := by ring
      rw [this, abs_neg]; exact hb
    · simp [a0, a1]
  cases hk : e.kind with
  | conductor eff blk =>
    rw [hk] at hf
    dsimp only at hf ⊢
    rw [hg.1]
    exact key _ hf (mul_nonneg hn (mul_nonneg (by positivity) (le_max_left _ _)))
  | capacitor cap dt =>
    rw [hk] at hf
    exact (key 0 hf le_rfl).trans (by split_ifs <;> exact le_rfl)
  | source demand blk =>
    rw [hk] at hf
    exact (key 0 hf le_rfl).trans (by split_ifs <;> exact le_rfl)
  | potential eff blk rise =>
    rw [hk] at hf
    exact (key 0 hf le_rfl).trans (by split_ifs <;> exact le_rfl)

/-- Links' fluxes out of a node against the node's row of the assembled system. -/
theorem network_equation (N : Nat) (es : List (Placed K)) (h : ∀ e ∈ es, e.Sound N) (x : Nat → K)
    {i : Nat} (hi : i < N) :
    |(es.map (Placed.outOf N x i)).sum -
      (mulVec N (asMat N (buildAdmittance N (es.map (Placed.view N)))) x i -
        buildSource N (es.map (Placed.view N)) i)| ≤ (es.map (Placed.slack N x i)).sum := by
  have hm : ∀ l ∈ es.map (Placed.view N), l.Mapped N := by
    intro l hl
    obtain ⟨e, he, rfl⟩ := List.mem_map.mp hl
    exact view_mapped (h e he)
  have hA : mulVec N (asMat N (buildAdmittance N (es.map (Placed.view N)))) x i =
      (es.map (fun e => ∑ j ∈ range N, (e.view N).element.stamp i j * x j)).sum := by
    unfold mulVec
    have : ∀ j ∈ range N, asMat N (buildAdmittance N (es.map (Placed.view N))) i j * x j =
        (es.map (fun e => (e.view N).element.stamp i j * x j)).sum := by
      intro j hj
      rw [c08_matrix_entries N _ hm i j hi (mem_range.mp hj), List.map_map, ← List.sum_map_mul_right]
      rfl
    rw [sum_congr rfl this]
    clear this hm h
    induction es with
    | nil => simp
    | cons e es ih => simp only [List.map_cons, List.sum_cons, sum_add_distrib, ih]
  have hS : buildSource N (es.map (Placed.view N)) i =
      (es.map (fun e => (e.view N).element.source i)).sum := by
    rw [c08_source_entries N _ i hi, List.map_map]; rfl
  rw [hA, hS]
  clear hA hS hm
  induction es with
  | nil => simp
  | cons e es ih =>
    simp only [List.map_cons, List.sum_cons]
    have h1 := view_equation (h e List.mem_cons_self) x i
    have h2 := ih (fun e' he' => h e' (List.mem_cons_of_mem _ he'))
    refine le_trans ?_ (add_le_add h1 h2)
    refine le_trans (le_of_eq ?_) (abs_add_le _ _)
    congr 1
    ring

/-! ## C25 -/

/-- C25: exact solution. If `x` solves the conditioned system exactly, the fluxes the links report
leave at every node an imbalance of the conditioning leak times the node potential, up to the dead
bands of the conductors at that node. -/
theorem c25_exact_solution (N : Nat) (es : List (Placed K)) (h : ∀ e ∈ es, e.Sound N) (x : Nat → K)
    (hx : ∀ i, i < N → mulVec N (conditionAdmittance N
        (asMat N (buildAdmittance N (es.map (Placed.view N))))) x i =
      buildSource N (es.map (Placed.view N)) i) {i : Nat} (hi : i < N) :
    |(es.map (Placed.outOf N x i)).sum +
      leak N (asMat N (buildAdmittance N (es.map (Placed.view N)))) i * x i| ≤
      (es.map (Placed.slack N x i)).sum := by
  have h1 := network_equation N es h x hi
  have h2 := hx i hi
  set A := asMat N (buildAdmittance N (es.map (Placed.view N))) with hA
  have h3 : mulVec N (conditionAdmittance N A) x i = mulVec N A x i + leak N A i * x i := by
    unfold mulVec
    have : ∀ j ∈ range N, conditionAdmittance N A i j * x j =
        A i j * x j + (if i = j then leak N A i * x i else 0) := by
      intro j _
      rw [c09_condition_entries]
      unfold leak
      by_cases hij : i = j
      · subst hij
        by_cases hr : |rowSum N A i| < 1 / 2 ^ 52
        · rw [if_pos ⟨rfl, hi, hr⟩, if_pos rfl, if_pos hr]; ring
        · rw [if_neg (fun c => hr c.2.2), if_pos rfl, if_neg hr]; ring
      · rw [if_neg (fun c => hij c.1), if_neg hij, add_zero]
    rw [sum_congr rfl this, sum_add_distrib, sum_ite_eq, if_pos (mem_range.mpr hi)]
  rw [h3] at h2
  have : (es.map (Placed.outOf N x i)).sum + leak N A i * x i =
      (es.map (Placed.outOf N x i)).sum -
        (mulVec N A x i - buildSource N (es.map (Placed.view N)) i) := by rw [← h2]; ring
  rw [this]; exact h1

/-- C25: the code's own solution. Every network of basic conductors, capacitors, flux sources and
potential sources is decomposed and solved without error; and the potentials found make, at every
non-ground node, the links' reported fluxes sum to zero, up to: the conditioning leak times the node
potential (none if the node has a direct conductance of at least 2^-52 to ground), the 1e-100 truncation of
the factorisation, and the dead bands of the conductors at the node. -/
theorem c25_kirchhoff (N : Nat) (hN : 0 < N) (es : List (Placed K)) (h : ∀ e ∈ es, e.Sound N)
    (x0 : Nat → K) :
    let A := asMat N (buildAdmittance N (es.map (Placed.view N)))
    ∃ B x, decompose (conditionAdmittance N A) N = .ok B ∧
      solve B (buildSource N (es.map (Placed.view N))) x0 N = .ok x ∧
      ∀ i, i < N →
        |(es.map (Placed.outOf N x i)).sum + leak N A i * x i| ≤
          (es.map (Placed.slack N x i)).sum +
          ∑ j ∈ range N, if j = i then 0 else truncation B i j * |x j| := by
  intro A
  have hm : ∀ l ∈ es.map (Placed.view N), l.Mapped N := by
    intro l hl
    obtain ⟨e, he, rfl⟩ := List.mem_map.mp hl
    exact view_mapped (h e he)
  have hc : ∀ l ∈ es.map (Placed.view N), l.element.Conductive := by
    intro l hl
    obtain ⟨e, he, rfl⟩ := List.mem_map.mp hl
    exact view_conductive (h e he)
  obtain ⟨hsy, hoff, hrow⟩ := c08_conductive N _ hm hc
  obtain ⟨B, hB, hpos⟩ := c09_network_decomposes N _ hm hc
  obtain ⟨x, hx⟩ := (c04_solve_outcome (n := N) (by omega) B (buildSource N (es.map (Placed.view N)))
    x0).2.1.mpr (fun k hk => (hpos k hk).ne')
  refine ⟨B, x, hB, hx, ?_⟩
  set C := conditionAdmittance N A with hC
  have hCoff : ∀ i j, i ≠ j → C i j = A i j := by
    intro i j hij
    rw [hC, c09_condition_entries, if_neg (fun c => hij c.1)]
  have hCdiag : ∀ i, i < N → C i i = A i i + leak N A i := by
    intro i hi
    rw [hC, c09_condition_entries]
    unfold leak
    by_cases hr : |rowSum N A i| < 1 / 2 ^ 52
    · rw [if_pos ⟨rfl, hi, hr⟩, if_pos hr]
    · rw [if_neg (fun c => hr c.2.2), if_neg hr, add_zero]
  have hCsy : Symm N C := by
    intro i j hi hj
    by_cases hij : i = j
    · subst hij; rfl
    · rw [hCoff i j hij, hCoff j i (Ne.symm hij)]; exact hsy i j hi hj
  have hCo : OffDiagNonpos N C := by
    intro i j hi hj hij
    rw [hCoff i j hij]; exact hoff i j hi hj hij
  have hC00 : 0 < C 0 0 := by
    have h1 : 0 < rowSum N C 0 := c09_rows_positive N A 0 hN (hrow 0 hN)
    have h2 : rowSum N C 0 ≤ C 0 0 := by
      unfold rowSum
      rw [← add_sum_erase _ _ (mem_range.mpr hN)]
      have : ∑ j ∈ (range N).erase 0, C 0 j ≤ 0 := by
        apply sum_nonpos
        intro j hj
        obtain ⟨hj0, hjN⟩ := mem_erase.mp hj
        exact hCo 0 j hN (mem_range.mp hjN) (Ne.symm hj0)
      linarith
    linarith
  obtain ⟨hu, hd, he⟩ := c01_decompose_backward_error hCsy hCo hC00 hB
  have hsol := c04_solve_correct hu hx
  intro i hi
  have h1 := network_equation N es h x hi
  have h2 := hsol i hi
  have herr : ∀ j, j < N → j ≠ i → |ldlt N B i j - A i j| ≤ truncation B i j := by
    intro j hj hji
    rw [← hCoff i j (Ne.symm hji)]
    unfold truncation
    rcases lt_or_gt_of_ne hji with hlt | hgt
    · obtain ⟨a1, a2, -, -⟩ := he i j hlt hi
      rw [abs_of_nonneg a1, min_eq_right hlt.le, max_eq_left hlt.le]
      exact a2
    · obtain ⟨a1, a2, a3, a4⟩ := he j i hgt hj
      rw [a3, a4, abs_of_nonneg a1, min_eq_left hgt.le, max_eq_right hgt.le]
      exact a2
  have h3 : |mulVec N (ldlt N B) x i - (mulVec N A x i + leak N A i * x i)| ≤
      ∑ j ∈ range N, if j = i then 0 else truncation B i j * |x j| := by
    have e : mulVec N (ldlt N B) x i - (mulVec N A x i + leak N A i * x i) =
        ∑ j ∈ range N, if j = i then 0 else (ldlt N B i j - A i j) * x j := by
      unfold mulVec
      have : leak N A i * x i = ∑ j ∈ range N, if j = i then leak N A i * x i else 0 := by
        rw [sum_ite_eq', if_pos (mem_range.mpr hi)]
      rw [this, ← sum_add_distrib, ← sum_sub_distrib]
      apply sum_congr rfl
      intro j hj
      by_cases hji : j = i
      · subst hji
        rw [if_pos rfl, if_pos rfl, hd j hi, hCdiag j hi]; ring
      · rw [if_neg hji, if_neg hji]; ring
    rw [e]
    refine (abs_sum_le_sum_abs _ _).trans (sum_le_sum ?_)
    intro j hj
    by_cases hji : j = i
    · rw [if_pos hji, if_pos hji, abs_zero]
    · rw [if_neg hji, if_neg hji, abs_mul]
      exact mul_le_mul_of_nonneg_right (herr j (mem_range.mp hj) hji) (abs_nonneg _)
  rw [h2] at h3
  refine le_trans ?_ (add_le_add h1 h3)
  refine le_trans (le_of_eq ?_) (abs_sub _ _)
  congr 1
  ring

/-- A source feeding node 0, conductors 0–1 and 1–ground, a capacitor 0–ground and a potential source
1–ground; none has stepped before. -/
def sampleCircuit : List (Placed ℚ) :=
  [⟨.source 3 none, .zero, 2, 0⟩, ⟨.conductor 1 none, .zero, 0, 1⟩, ⟨.conductor 2 (some (1/2)), .zero, 1, 2⟩,
   ⟨.capacitor 5 1, .zero, 0, 2⟩, ⟨.potential 1 none 4, .zero, 2, 1⟩]

theorem sampleCircuit_sound : ∀ e ∈ sampleCircuit, e.Sound 2 := by
  intro e he
  simp only [sampleCircuit, List.mem_cons, List.not_mem_nil, or_false] at he
  rcases he with rfl | rfl | rfl | rfl | rfl <;>
    exact ⟨by decide, by decide, 0, ⟨rfl, by norm_num [Two.zero], by norm_num [Two.zero], rfl⟩, by
      simp [Two.zero]⟩

/-- The sample circuit carries flux and balances at both nodes: the solved potentials are
`x 0 = 13/17`, `x 1 = 27/17`. -/
example :
    let A := asMat 2 (buildAdmittance 2 (sampleCircuit.map (Placed.view 2)))
    let s := buildSource 2 (sampleCircuit.map (Placed.view 2))
    (A 0 0, A 0 1, A 1 0, A 1 1, s 0, s 1) = (6, -1, -1, 3, 3, 4) ∧
    leak 2 A 0 = 0 ∧ leak 2 A 1 = 0 := by
  decide +kernel

example : ∃ B x, decompose (conditionAdmittance 2
      (asMat 2 (buildAdmittance 2 (sampleCircuit.map (Placed.view 2))))) 2 = .ok B ∧
    solve B (buildSource 2 (sampleCircuit.map (Placed.view 2))) (fun _ => 0) 2 = .ok x ∧
    ∀ i, i < 2 → |(sampleCircuit.map (Placed.outOf 2 x i)).sum +
        leak 2 (asMat 2 (buildAdmittance 2 (sampleCircuit.map (Placed.view 2)))) i * x i| ≤
      (sampleCircuit.map (Placed.slack 2 x i)).sum +
        ∑ j ∈ range 2, if j = i then 0 else truncation B i j * |x j| :=
  c25_kirchhoff 2 (by decide) sampleCircuit sampleCircuit_sound (fun _ => 0)

/-- With the exact solution the fluxes of the sample circuit: each element carries a definite flux. -/
example : sampleCircuit.map (Placed.flux 2 (fun i => if i = 0 then 13/17 else 27/17)) =
    [3, -14/17, 27/17, 65/17, 41/17] := by
  decide +kernel

end Gunns.Props
