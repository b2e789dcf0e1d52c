import Verif.Net.Assembly
import Verif.Net.Spec
import Verif.LinAlg.SolveLemmas

/-!
# Assembly loops are sums
-/

set_option linter.unusedSectionVars false

namespace Gunns

open Finset Spec

variable {K : Type _} [Field K] [LinearOrder K]

theorem updateAdmittanceMap_eq (N ports : Nat) (nodeMap : Nat → Nat) (old : Nat → Int)
    (p q : Nat) (hp : p < ports) (hq : q < ports) :
    updateAdmittanceMap N ports nodeMap old (p * ports + q) =
      if nodeMap p = N ∨ nodeMap q = N then -1 else (nodeMap p : Int) * N + nodeMap q := by
  have inner : ∀ (port1 m : Nat) (o : Nat → Int) (a : Nat),
      loop (fun port2 m => fun a =>
        if a = port1 * ports + port2 then
          (if nodeMap port1 = N ∨ nodeMap port2 = N then -1
           else (nodeMap port1 : Int) * N + nodeMap port2)
        else m a) m o a =
      if ∃ c, c < m ∧ a = port1 * ports + c then
        (if nodeMap port1 = N ∨ nodeMap (a - port1 * ports) = N then -1
           else (nodeMap port1 : Int) * N + nodeMap (a - port1 * ports)) else o a := by
    intro port1 m o a
    induction m with
    | zero => simp
    | succ m ih =>
      rw [loop_succ]
      by_cases h : a = port1 * ports + m
      · have h3 : ∃ c, c < m + 1 ∧ a = port1 * ports + c := ⟨m, by omega, h⟩
        simp only [if_pos h, if_pos h3, show a - port1 * ports = m by omega]
      · rw [if_neg h, ih]
        by_cases h2 : ∃ c, c < m ∧ a = port1 * ports + c
        · have h3 : ∃ c, c < m + 1 ∧ a = port1 * ports + c := by
            obtain ⟨c, h3, h4⟩ := h2
            exact ⟨c, by omega, h4⟩
          simp only [if_pos h2, if_pos h3]
        · rw [if_neg h2, if_neg]
          rintro ⟨c, h3, h4⟩
          rcases Nat.lt_succ_iff_lt_or_eq.mp h3 with h5 | rfl
          · exact h2 ⟨c, h5, h4⟩
          · exact h h4
  have outer : ∀ m, m ≤ ports → p < m →
      loop (fun port1 m => loop (fun port2 m => fun a =>
        if a = port1 * ports + port2 then
          (if nodeMap port1 = N ∨ nodeMap port2 = N then -1
           else (nodeMap port1 : Int) * N + nodeMap port2)
        else m a) ports m) m old (p * ports + q) =
      if nodeMap p = N ∨ nodeMap q = N then -1 else (nodeMap p : Int) * N + nodeMap q := by
    intro m
    induction m with
    | zero => intro _ h; omega
    | succ m ih =>
      intro hm hpm
      rw [loop_succ, inner]
      rcases Nat.lt_succ_iff_lt_or_eq.mp hpm with h | rfl
      · rw [if_neg, ih (by omega) h]
        rintro ⟨c, hc, he⟩
        have : p * ports + q < (p + 1) * ports := by rw [Nat.succ_mul]; omega
        have : (p + 1) * ports ≤ m * ports := Nat.mul_le_mul_right _ h
        omega
      · rw [if_pos ⟨q, hq, rfl⟩, show p * ports + q - p * ports = q by omega]
  exact outer ports le_rfl hp

theorem addLinkAdmittance_eq (N : Nat) (l : LinkView K) (A : Vect K) (m : Nat) (hm : m < N * N) :
    addLinkAdmittance N l A m =
      A m + ∑ a ∈ range l.mapSize, if l.map a = (m : Int) then l.adm a else 0 := by
  unfold addLinkAdmittance
  induction l.mapSize with
  | zero => simp
  | succ s ih =>
    rw [loop_succ, sum_range_succ, ← add_assoc, ← ih]
    by_cases h : l.map s = (m : Int)
    · rw [if_pos (by rw [h]; omega), if_pos h, h]
      simp
    · rw [if_neg h, add_zero]
      split
      · rw [Vect.set_ne]
        intro he
        apply h
        omega
      · rfl

theorem buildAdmittance_eq (N : Nat) (links : List (LinkView K)) (m : Nat) (hm : m < N * N) :
    buildAdmittance N links m =
      (links.map (fun l => ∑ a ∈ range l.mapSize, if l.map a = (m : Int) then l.adm a else 0)).sum := by
  unfold buildAdmittance
  have : ∀ (A : Vect K), links.foldl (fun A l => addLinkAdmittance N l A) A m =
      A m + (links.map (fun l => ∑ a ∈ range l.mapSize,
        if l.map a = (m : Int) then l.adm a else 0)).sum := by
    induction links with
    | nil => simp
    | cons l ls ih =>
      intro A
      rw [List.foldl_cons, ih, addLinkAdmittance_eq N l A m hm, List.map_cons, List.sum_cons, add_assoc]
  rw [this, zero_add]

theorem addLinkSource_eq (N : Nat) (l : LinkView K) (w : Vect K) (i : Nat) (hi : i < N) :
    addLinkSource N l w i = w i + ∑ p ∈ range l.ports, if l.nodeMap p = i then l.src p else 0 := by
  unfold addLinkSource
  induction l.ports with
  | zero => simp
  | succ s ih =>
    rw [loop_succ, sum_range_succ, ← add_assoc, ← ih]
    by_cases h : l.nodeMap s = i
    · rw [if_pos (by omega), if_pos h, h]
      simp
    · rw [if_neg h, add_zero]
      split
      · rw [Vect.set_ne _ _ _ _ (fun he => h he.symm)]
      · rfl

theorem buildSource_eq (N : Nat) (links : List (LinkView K)) (i : Nat) (hi : i < N) :
    buildSource N links i =
      (links.map (fun l => ∑ p ∈ range l.ports, if l.nodeMap p = i then l.src p else 0)).sum := by
  unfold buildSource
  have : ∀ (w : Vect K), links.foldl (fun w l => addLinkSource N l w) w i =
      w i + (links.map (fun l => ∑ p ∈ range l.ports,
        if l.nodeMap p = i then l.src p else 0)).sum := by
    induction links with
    | nil => simp
    | cons l ls ih =>
      intro w
      rw [List.foldl_cons, ih, addLinkSource_eq N l w i hi, List.map_cons, List.sum_cons, add_assoc]
  rw [this, zero_add]

/-- Flat sums over `ports²` as double sums. -/
theorem sum_square (n : Nat) (f : Nat → K) :
    ∑ a ∈ range (n * n), f a = ∑ p ∈ range n, ∑ q ∈ range n, f (p * n + q) := by
  have : ∀ m, ∑ a ∈ range (m * n), f a = ∑ p ∈ range m, ∑ q ∈ range n, f (p * n + q) := by
    intro m
    induction m with
    | zero => simp
    | succ m ih =>
      rw [Nat.succ_mul, sum_range_add, ih, sum_range_succ]
  exact this n

theorem link_sum_eq_stamp (N : Nat) (l : LinkView K) (h : l.Mapped N) (i j : Nat) (hi : i < N)
    (hj : j < N) :
    (∑ a ∈ range l.mapSize, if l.map a = ((i * N + j : Nat) : Int) then l.adm a else 0) =
      l.element.stamp i j := by
  obtain ⟨old, hold⟩ := h.map
  rw [h.size, sum_square]
  unfold Element.stamp LinkView.element
  apply sum_congr rfl
  intro p hp
  apply sum_congr rfl
  intro q hq
  rw [mem_range] at hp hq
  dsimp only at hp hq ⊢
  rw [hold, updateAdmittanceMap_eq N l.ports l.nodeMap old p q hp hq]
  have hpn := h.nodes p hp
  have hqn := h.nodes q hq
  congr 1
  apply propext
  constructor
  · intro he
    split at he
    · omega
    · rename_i hng
      push Not at hng
      have hq' : l.nodeMap q < N := by omega
      have he' : l.nodeMap p * N + l.nodeMap q = i * N + j := by exact_mod_cast he
      have h1 : l.nodeMap p = i := by
        have a := congrArg (· / N) he'
        have hN : 0 < N := by omega
        change (l.nodeMap p * N + l.nodeMap q) / N = (i * N + j) / N at a
        rwa [Nat.add_comm, Nat.add_mul_div_right _ _ hN, Nat.div_eq_of_lt hq', Nat.add_comm (i * N),
          Nat.add_mul_div_right _ _ hN, Nat.div_eq_of_lt hj, Nat.zero_add, Nat.zero_add] at a
      subst h1
      exact ⟨rfl, by omega⟩
  · rintro ⟨rfl, rfl⟩
    rw [if_neg (by omega)]
    push_cast
    ring

theorem asMat_build (N : Nat) (links : List (LinkView K)) (h : ∀ l ∈ links, l.Mapped N) (i j : Nat)
    (hi : i < N) (hj : j < N) :
    asMat N (buildAdmittance N links) i j = (links.map (fun l => l.element.stamp i j)).sum := by
  unfold asMat
  have hlt : i * N + j < N * N := by
    have : (i + 1) * N ≤ N * N := Nat.mul_le_mul_right _ hi
    rw [Nat.succ_mul] at this
    omega
  rw [buildAdmittance_eq N links _ hlt]
  congr 1
  apply List.map_congr_left
  intro l hl
  exact link_sum_eq_stamp N l (h l hl) i j hi hj

/-! ### Conductive elements -/

section
variable [IsStrictOrderedRing K]

theorem stamp_symm (e : Element K) (he : e.Conductive) (i j : Nat) : e.stamp i j = e.stamp j i := by
  unfold Element.stamp
  rw [sum_comm]
  apply sum_congr rfl
  intro q hq
  apply sum_congr rfl
  intro p hp
  rw [mem_range] at hp hq
  rw [he.symm p q hp hq]
  congr 1
  exact propext and_comm

theorem stamp_nonpos (e : Element K) (he : e.Conductive) (i j : Nat) (hij : i ≠ j) :
    e.stamp i j ≤ 0 := by
  unfold Element.stamp
  apply sum_nonpos
  intro p hp
  apply sum_nonpos
  intro q hq
  rw [mem_range] at hp hq
  split
  · rename_i h
    apply he.off p q hp hq
    rintro rfl
    exact hij (h.1.symm.trans h.2)
  · exact le_rfl

theorem stamp_rowSum (e : Element K) (he : e.Conductive) (N : Nat) (i : Nat) (hi : i < N) : 0 ≤ ∑ j ∈ range N, e.stamp i j := by
  unfold Element.stamp
  rw [sum_comm]
  apply sum_nonneg
  intro p hp
  rw [mem_range] at hp
  rw [sum_comm]
  by_cases hpi : e.node p = i
  · have h1 : ∀ q ∈ range e.ports,
        (∑ j ∈ range N, if e.node p = i ∧ e.node q = j then e.mat p q else 0) =
        if e.node q < N then e.mat p q else 0 := by
      intro q _
      by_cases hqN : e.node q < N
      · rw [if_pos hqN, Finset.sum_eq_single (e.node q)]
        · rw [if_pos ⟨hpi, rfl⟩]
        · intro j _ hj
          rw [if_neg (fun h => hj h.2.symm)]
        · intro h
          exact absurd (mem_range.mpr hqN) h
      · rw [if_neg hqN]
        apply sum_eq_zero
        intro j hj
        rw [mem_range] at hj
        rw [if_neg (by omega)]
    rw [sum_congr rfl h1]
    refine (he.rows p hp).trans ?_
    apply sum_le_sum
    intro q hq
    rw [mem_range] at hq
    split
    · exact le_rfl
    · apply he.off p q hp hq
      rintro rfl
      omega
  · apply le_of_eq
    symm
    apply sum_eq_zero
    intro q _
    apply sum_eq_zero
    intro j _
    rw [if_neg (fun h => hpi h.1)]

/-! ### Conditioning -/

theorem conditionRowSum_eq (N row : Nat) (A : Mat K) : conditionRowSum N row A = rowSum N A row := by
  unfold conditionRowSum rowSum
  have : ∀ m, loop (fun j s => s + A row j) m 0 = ∑ j ∈ range m, A row j := by
    intro m
    induction m with
    | zero => simp
    | succ m ih => rw [loop_succ, ih, sum_range_succ]
  exact this N

theorem condition_prefix (N : Nat) (A : Mat K) (m : Nat) (hm : m ≤ N) :
    (∀ i j, ¬ (i = j ∧ i < m) → loop (conditionRow N) m A i j = A i j) ∧
    (∀ i, i < m → loop (conditionRow N) m A i i =
      if |rowSum N A i| < dblEps then A i i + max (A i i) dblEps * (1 / 10 ^ 15) else A i i) := by
  induction m with
  | zero => simp
  | succ m ih =>
    obtain ⟨h1, h2⟩ := ih (by omega)
    set B := loop (conditionRow N) m A with hB
    have hrs : rowSum N B m = rowSum N A m := by
      unfold rowSum
      apply sum_congr rfl
      intro j _
      exact h1 m j (by omega)
    rw [loop_succ, ← hB, conditionRow, conditionRowSum_eq, hrs]
    refine ⟨?_, ?_⟩
    · intro i j hij
      split
      · rw [Mat.set_ne _ _ _ _ _ _ (by omega), h1 i j (by omega)]
      · exact h1 i j (by omega)
    · intro i hi
      rcases Nat.lt_succ_iff_lt_or_eq.mp hi with hlt | rfl
      · rw [← h2 i hlt]
        split
        · rw [Mat.set_ne _ _ _ _ _ _ (by omega)]
        · rfl
      · split
        · rw [Mat.set_same, h1 i i (by omega)]
        · exact h1 i i (by omega)

end

end Gunns
