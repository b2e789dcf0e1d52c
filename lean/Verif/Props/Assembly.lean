import Verif.Net.AssemblyLemmas
import Verif.Props.LinAlg

/-!
# Properties C08, C09: assembly and conditioning of the network matrix
-/

set_option linter.unusedSectionVars false

namespace Gunns.Props

open Finset Gunns.Spec

variable {K : Type _} [Field K] [LinearOrder K] [IsStrictOrderedRing K]

/-! ## Sample network

Three nodes (ground is node 3): a conductance 2 between nodes 0 and 1, a conductance 5 from node 1 to
ground, and a three-port star between nodes 2, 0 and ground. -/

/-- A link whose map was computed by the code for its node map. -/
def mkLink (N ports : Nat) (nodes : List Nat) (adm src : List ℚ) : LinkView ℚ where
  ports := ports
  nodeMap p := nodes.getD p 0
  adm a := adm.getD a 0
  mapSize := ports * ports
  map := updateAdmittanceMap N ports (fun p => nodes.getD p 0) (fun _ => -1)
  src p := src.getD p 0

/-- The sample network. -/
def sampleLinks : List (LinkView ℚ) :=
  [mkLink 3 2 [0, 1] [2, -2, -2, 2] [-1, 1],
   mkLink 3 2 [1, 3] [5, -5, -5, 5] [7, -7],
   mkLink 3 3 [2, 0, 3] [4, -1, -3, -1, 3, -2, -3, -2, 5] [1, 2, -3]]

theorem sampleLinks_mapped : ∀ l ∈ sampleLinks, l.Mapped 3 := by
  intro l hl
  simp only [sampleLinks, List.mem_cons, List.not_mem_nil, or_false] at hl
  rcases hl with rfl | rfl | rfl
  all_goals
    refine ⟨rfl, ?_, ⟨_, rfl⟩⟩
    intro p hp
    simp only [mkLink] at hp ⊢
    interval_cases p <;> decide

theorem sampleLinks_conductive : ∀ l ∈ sampleLinks, l.element.Conductive := by
  intro l hl
  simp only [sampleLinks, List.mem_cons, List.not_mem_nil, or_false] at hl
  rcases hl with rfl | rfl | rfl
  all_goals
    refine ⟨?_, ?_, ?_⟩
    · intro p q hp hq
      simp only [mkLink, LinkView.element] at hp hq
      interval_cases p <;> interval_cases q <;> rfl
    · intro p q hp hq hpq
      simp only [mkLink, LinkView.element] at hp hq
      interval_cases p <;> interval_cases q <;>
        first | omega | norm_num [mkLink, LinkView.element]
    · intro p hp
      simp only [mkLink, LinkView.element] at hp
      interval_cases p <;> norm_num [mkLink, LinkView.element, sum_range_succ]

/-! ## C08 -/

/-- **C08 (matrix).** Each term of the network matrix is the sum over the links of the port terms mapped
to it. -/
theorem c08_matrix_entries (N : Nat) (links : List (LinkView K)) (h : ∀ l ∈ links, l.Mapped N)
    (i j : Nat) (hi : i < N) (hj : j < N) :
    asMat N (buildAdmittance N links) i j = (links.map (fun l => l.element.stamp i j)).sum :=
  asMat_build N links h i j hi hj

example : (fun i j => asMat 3 (buildAdmittance 3 sampleLinks) i j) 0 0 = 5 ∧
    asMat 3 (buildAdmittance 3 sampleLinks) 1 1 = 7 ∧
    asMat 3 (buildAdmittance 3 sampleLinks) 2 0 = -1 := by
  refine ⟨?_, ?_, ?_⟩ <;> decide +kernel

/-- **C08 (sources).** Each term of the source vector is the sum over the links of the sources of the ports
attached to the node. -/
theorem c08_source_entries (N : Nat) (links : List (LinkView K)) (i : Nat) (hi : i < N) :
    buildSource N links i = (links.map (fun l => l.element.source i)).sum :=
  buildSource_eq N links i hi

example : buildSource 3 sampleLinks 0 = 1 ∧ buildSource 3 sampleLinks 1 = 8 := by
  constructor <;> decide +kernel

/-- **C08 (ground).** Ports on ground leave no trace in the system: two networks with the same ports on the
same nodes and the same terms between non-ground ports give the same matrix and the same sources. -/
theorem c08_ground_free (N : Nat) (l l' : LinkView K) (before after : List (LinkView K))
    (hl : l.Mapped N) (hl' : l'.Mapped N) (hb : ∀ m ∈ before, m.Mapped N) (ha : ∀ m ∈ after, m.Mapped N)
    (hp : l.ports = l'.ports) (hn : l.nodeMap = l'.nodeMap)
    (hm : ∀ p q, p < l.ports → q < l.ports → l.nodeMap p ≠ N → l.nodeMap q ≠ N →
      l.element.mat p q = l'.element.mat p q)
    (hs : ∀ p, p < l.ports → l.nodeMap p ≠ N → l.src p = l'.src p) :
    (∀ i j, i < N → j < N →
      asMat N (buildAdmittance N (before ++ l :: after)) i j =
      asMat N (buildAdmittance N (before ++ l' :: after)) i j) ∧
    (∀ i, i < N → buildSource N (before ++ l :: after) i = buildSource N (before ++ l' :: after) i) := by
  have mem : ∀ (x : LinkView K), x.Mapped N → ∀ m ∈ before ++ x :: after, m.Mapped N := by
    intro x hx m hm
    rw [List.mem_append, List.mem_cons] at hm
    rcases hm with h | rfl | h
    · exact hb m h
    · exact hx
    · exact ha m h
  refine ⟨?_, ?_⟩
  · intro i j hi hj
    rw [c08_matrix_entries N _ (mem l hl) i j hi hj, c08_matrix_entries N _ (mem l' hl') i j hi hj]
    simp only [List.map_append, List.map_cons, List.sum_append, List.sum_cons]
    congr 2
    unfold Element.stamp
    have e1 : l.element.ports = l'.element.ports := hp
    rw [← e1]
    apply sum_congr rfl
    intro p hpp
    apply sum_congr rfl
    intro q hq
    rw [mem_range] at hpp hq
    have e2 : l'.element.node = l.element.node := hn.symm
    rw [e2]
    split
    · rename_i h
      apply hm p q hpp hq
      · intro h'
        have := h.1
        simp only [LinkView.element] at this
        omega
      · intro h'
        have := h.2
        simp only [LinkView.element] at this
        omega
    · rfl
  · intro i hi
    rw [c08_source_entries N _ i hi, c08_source_entries N _ i hi]
    simp only [List.map_append, List.map_cons, List.sum_append, List.sum_cons]
    congr 2
    unfold Element.source
    have e1 : l.element.ports = l'.element.ports := hp
    rw [← e1]
    apply sum_congr rfl
    intro p hpp
    rw [mem_range] at hpp
    have e2 : l'.element.node = l.element.node := hn.symm
    rw [e2]
    split
    · rename_i h
      apply hs p hpp
      intro h'
      simp only [LinkView.element] at h
      omega
    · rfl

/-- Two links that differ only in their ground port terms. -/
example : (∀ i j, i < 3 → j < 3 →
    asMat 3 (buildAdmittance 3 ([] ++ mkLink 3 2 [1, 3] [5, -5, -5, 5] [7, -7] :: [])) i j =
    asMat 3 (buildAdmittance 3 ([] ++ mkLink 3 2 [1, 3] [5, 8, 9, 10] [7, 70] :: [])) i j) := by
  refine (c08_ground_free 3 _ _ [] [] ?_ ?_ (by simp) (by simp) rfl rfl ?_ ?_).1
  · exact sampleLinks_mapped _ (by simp [sampleLinks])
  · refine ⟨rfl, ?_, ⟨_, rfl⟩⟩
    intro p hp
    simp only [mkLink] at hp ⊢
    interval_cases p <;> decide
  · intro p q hp hq h1 h2
    simp only [mkLink] at hp hq h1 h2
    interval_cases p <;> interval_cases q <;> rfl
  · intro p hp h1
    simp only [mkLink] at hp h1
    interval_cases p <;> rfl

/-- **C08 (order).** The order in which links are registered has no influence on the matrix and sources,
whatever their maps. -/
theorem c08_order_irrelevant (N : Nat) (links links' : List (LinkView K)) (h : links.Perm links') :
    (∀ m, m < N * N → buildAdmittance N links m = buildAdmittance N links' m) ∧
    (∀ i, i < N → buildSource N links i = buildSource N links' i) := by
  refine ⟨?_, ?_⟩
  · intro m hm
    rw [buildAdmittance_eq N links m hm, buildAdmittance_eq N links' m hm]
    exact (h.map _).sum_eq
  · intro i hi
    rw [buildSource_eq N links i hi, buildSource_eq N links' i hi]
    exact (h.map _).sum_eq

example : ∀ m, m < 3 * 3 →
    buildAdmittance 3 sampleLinks m = buildAdmittance 3 sampleLinks.reverse m :=
  (c08_order_irrelevant 3 _ _ (List.reverse_perm _).symm).1

/-- **C08 (bounds).** Whatever the link maps hold, assembly never writes outside of the matrix. -/
theorem c08_no_write_outside (N : Nat) (l : LinkView K) (A : Vect K) (m : Nat) (hm : N * N ≤ m) :
    addLinkAdmittance N l A m = A m := by
  unfold addLinkAdmittance
  induction l.mapSize with
  | zero => rfl
  | succ s ih =>
    rw [loop_succ, ← ih]
    split
    · rename_i h
      rw [Vect.set_ne]
      intro he
      omega
    · rfl

/-- **C08 (symmetry).** If each link's own matrix is symmetric, so is the network's. -/
theorem c08_symmetric (N : Nat) (links : List (LinkView K)) (h : ∀ l ∈ links, l.Mapped N)
    (hs : ∀ l ∈ links, ∀ p q, p < l.ports → q < l.ports → l.element.mat p q = l.element.mat q p) :
    Symm N (asMat N (buildAdmittance N links)) := by
  intro i j hi hj
  rw [c08_matrix_entries N links h i j hi hj, c08_matrix_entries N links h j i hj hi]
  congr 1
  apply List.map_congr_left
  intro l hl
  unfold Element.stamp
  rw [sum_comm]
  apply sum_congr rfl
  intro q hq
  apply sum_congr rfl
  intro p hp
  rw [mem_range] at hp hq
  rw [hs l hl p q hp hq]
  congr 1
  exact propext and_comm

example : Symm 3 (asMat 3 (buildAdmittance 3 sampleLinks)) :=
  c08_symmetric 3 _ sampleLinks_mapped (fun l hl => (sampleLinks_conductive l hl).symm)

/-- **C08 (conductances).** Conductance-type links give a symmetric network matrix with non-positive
off-diagonal terms and non-negative row sums. -/
theorem c08_conductive (N : Nat) (links : List (LinkView K)) (h : ∀ l ∈ links, l.Mapped N)
    (hc : ∀ l ∈ links, l.element.Conductive) :
    Symm N (asMat N (buildAdmittance N links)) ∧ OffDiagNonpos N (asMat N (buildAdmittance N links)) ∧
    ∀ i, i < N → 0 ≤ rowSum N (asMat N (buildAdmittance N links)) i := by
  refine ⟨c08_symmetric N links h (fun l hl => (hc l hl).symm), ?_, ?_⟩
  · intro i j hi hj hij
    rw [c08_matrix_entries N links h i j hi hj]
    rw [← neg_nonneg, List.sum_neg]
    apply List.sum_nonneg
    intro x hx
    rw [List.mem_map] at hx
    obtain ⟨x, hx, rfl⟩ := hx
    rw [neg_nonneg]
    obtain ⟨l, hl, rfl⟩ := List.mem_map.mp hx
    exact stamp_nonpos _ (hc l hl) i j hij
  · intro i hi
    unfold rowSum
    have e : ∑ j ∈ range N, asMat N (buildAdmittance N links) i j =
        (links.map (fun l => ∑ j ∈ range N, l.element.stamp i j)).sum := by
      rw [sum_congr rfl (fun j hj => c08_matrix_entries N links h i j hi (mem_range.mp hj))]
      clear h hc
      induction links with
      | nil => simp
      | cons l ls ih => simp only [List.map_cons, List.sum_cons, sum_add_distrib, ih]
    rw [e]
    apply List.sum_nonneg
    intro x hx
    obtain ⟨l, hl, rfl⟩ := List.mem_map.mp hx
    exact stamp_rowSum _ (hc l hl) N i hi

example : OffDiagNonpos 3 (asMat 3 (buildAdmittance 3 sampleLinks)) :=
  (c08_conductive 3 _ sampleLinks_mapped sampleLinks_conductive).2.1

/-! ## C09 -/

/-- **C09.** Conditioning changes only the diagonal of rows whose sum is below machine epsilon, by
`max(diagonal, eps) * 1e-15`. -/
theorem c09_condition_entries (N : Nat) (A : Mat K) (i j : Nat) :
    conditionAdmittance N A i j =
      if i = j ∧ i < N ∧ |rowSum N A i| < 1 / 2 ^ 52
      then A i i + max (A i i) (1 / 2 ^ 52) / 10 ^ 15 else A i j := by
  obtain ⟨h1, h2⟩ := condition_prefix N A N le_rfl
  unfold conditionAdmittance
  by_cases hij : i = j ∧ i < N
  · obtain ⟨rfl, hi⟩ := hij
    rw [h2 i hi]
    simp only [hi, true_and, dblEps, div_eq_mul_inv, one_mul]
  · rw [h1 i j hij, if_neg (fun h => hij ⟨h.1, h.2.1⟩)]

/-- **C09.** After conditioning all row sums are positive if they were non-negative before. -/
theorem c09_rows_positive (N : Nat) (A : Mat K) (i : Nat) (hi : i < N) (h : 0 ≤ rowSum N A i) :
    0 < rowSum N (conditionAdmittance N A) i := by
  have e : rowSum N (conditionAdmittance N A) i = rowSum N A i +
      if |rowSum N A i| < 1 / 2 ^ 52 then max (A i i) (1 / 2 ^ 52) / 10 ^ 15 else 0 := by
    have : ∀ j ∈ range N, conditionAdmittance N A i j = A i j +
        if i = j then (if |rowSum N A i| < 1 / 2 ^ 52
          then max (A i i) (1 / 2 ^ 52) / 10 ^ 15 else 0) else 0 := by
      intro j _
      rw [c09_condition_entries]
      by_cases hj : i = j
      · subst hj
        by_cases hr : |rowSum N A i| < 1 / 2 ^ 52
        · rw [if_pos ⟨rfl, hi, hr⟩, if_pos rfl, if_pos hr]
        · rw [if_neg (fun h => hr h.2.2), if_pos rfl, if_neg hr, add_zero]
      · rw [if_neg (fun h => hj h.1), if_neg hj, add_zero]
    conv_lhs => unfold rowSum
    rw [sum_congr rfl this, sum_add_distrib, Finset.sum_ite_eq, if_pos (mem_range.mpr hi)]
    rfl
  have heps : (0 : K) < 1 / 2 ^ 52 := by positivity
  rw [e]
  split
  · have : (0 : K) < max (A i i) (1 / 2 ^ 52) := lt_max_of_lt_right heps
    have : (0 : K) < max (A i i) (1 / 2 ^ 52) / 10 ^ 15 := by positivity
    linarith
  · rename_i hr
    rw [abs_of_nonneg h, not_lt] at hr
    linarith

/-- **C09 with C02 and C08.** No network of conductance-type links, of any size and shape, can fail to
decompose after conditioning. -/
theorem c09_network_decomposes (N : Nat) (links : List (LinkView K)) (h : ∀ l ∈ links, l.Mapped N)
    (hc : ∀ l ∈ links, l.element.Conductive) :
    ∃ B, decompose (conditionAdmittance N (asMat N (buildAdmittance N links))) N = .ok B ∧
      ∀ i, i < N → 0 < B i i := by
  obtain ⟨h1, h2, h3⟩ := c08_conductive N links h hc
  apply c02_decompose_succeeds
  · intro i j hi hj
    rw [c09_condition_entries, c09_condition_entries]
    by_cases hij : i = j
    · subst hij; rfl
    · rw [if_neg (fun h => hij h.1), if_neg (fun h => hij h.1.symm)]
      exact h1 i j hi hj
  · intro i j hi hj hij
    rw [c09_condition_entries, if_neg (fun h => hij h.1)]
    exact h2 i j hi hj hij
  · intro i hi
    exact c09_rows_positive N _ i hi (h3 i hi)

/-- A floating network (no ground path at all), where conditioning is what makes it work. -/
example : ∃ B, decompose (conditionAdmittance 2 (asMat 2 (buildAdmittance 2
    [mkLink 2 2 [0, 1] [2, -2, -2, 2] [0, 0]]))) 2 = .ok B ∧ ∀ i, i < 2 → 0 < B i i := by
  apply c09_network_decomposes
  · intro l hl
    obtain rfl := List.mem_singleton.mp hl
    refine ⟨rfl, ?_, ⟨_, rfl⟩⟩
    intro p hp
    simp only [mkLink] at hp ⊢
    interval_cases p <;> decide
  · intro l hl
    obtain rfl := List.mem_singleton.mp hl
    exact sampleLinks_conductive (mkLink 3 2 [0, 1] [2, -2, -2, 2] [-1, 1]) (by simp [sampleLinks]) |>
      fun ⟨a, b, c⟩ => ⟨a, b, c⟩

example : rowSum 2 (conditionAdmittance 2 (ofRows [[2, -2], [-2, 2]])) 0 = 2 / 10 ^ 15 := by
  norm_num [rowSum, sum_range_succ, c09_condition_entries, ofRows]

end Gunns.Props
