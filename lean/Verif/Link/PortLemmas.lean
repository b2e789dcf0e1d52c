import Verif.Link.Ports
import Mathlib.Tactic.Ring
import Mathlib.Tactic.Linarith
import Mathlib.Tactic.SplitIfs

/-!
# Lemmas about port handling
-/

namespace Gunns.Ports

theorem validPort_iff (l : Link) (p : Int) : validPort l p = true ↔ 0 ≤ p ∧ p < l.numPorts := by
  simp only [validPort, Bool.and_eq_true, decide_eq_true_eq]; omega

theorem validNode_iff (l : Link) (p : Int) : validNode l p = true ↔ 0 ≤ p ∧ p ≤ l.groundIdx := by
  simp only [validNode, Bool.and_eq_true, decide_eq_true_eq]; omega

theorem checkDuplication_iff (l : Link) (p node : Int) :
    checkDuplication l p node = true ↔
      (node < l.groundIdx → ∀ q, q < l.numPorts → p ≠ (q : Int) → l.nodeMap q ≠ node) := by
  have h := loop_inv (f := fun other result =>
      if p ≠ ((other : Nat) : Int) ∧ l.nodeMap other = node ∧ node < l.groundIdx then false else result)
    (s := true)
    (P := fun k (t : Bool) => t = true ↔
      (node < l.groundIdx → ∀ q, q < k → p ≠ (q : Int) → l.nodeMap q ≠ node)) l.numPorts
    (by simp) ?_
  · exact h
  · intro k _ t ht
    by_cases hc : p ≠ (k : Int) ∧ l.nodeMap k = node ∧ node < l.groundIdx
    · show (if p ≠ (k : Int) ∧ l.nodeMap k = node ∧ node < l.groundIdx then false else t) = true ↔ _
      rw [if_pos hc]
      simp only [Bool.false_eq_true, false_iff]
      intro h
      exact h hc.2.2 k (Nat.lt_succ_self k) hc.1 hc.2.1
    · show (if p ≠ (k : Int) ∧ l.nodeMap k = node ∧ node < l.groundIdx then false else t) = true ↔ _
      rw [if_neg hc, ht]
      constructor
      · intro h hn q hq hpq
        rcases Nat.lt_succ_iff_lt_or_eq.mp hq with h1 | rfl
        · exact h hn q h1 hpq
        · exact fun he => hc ⟨hpq, he, hn⟩
      · intro h hn q hq hpq
        exact h hn q (Nat.lt_succ_of_lt hq) hpq

theorem checkRules_iff (l : Link) (p node : Int) :
    checkRules l p node = true ↔
      (0 ≤ p ∧ p < l.numPorts) ∧ (0 ≤ node ∧ node ≤ l.groundIdx) ∧
      (node < l.groundIdx → ∀ q, q < l.numPorts → p ≠ (q : Int) → l.nodeMap q ≠ node) ∧
      l.rules p node = true := by
  rw [← validPort_iff, ← validNode_iff, ← checkDuplication_iff]
  unfold checkRules
  cases validPort l p <;> cases validNode l node <;> cases checkDuplication l p node <;> simp

/-- The map entry written for a pair of nodes. -/
def entry (g a b : Int) : Int := if a = g ∨ b = g then -1 else a * g + b

theorem updateAdmMap_at (l : Link) (p q : Nat) (hp : p < l.numPorts) (hq : q < l.numPorts) :
    (updateAdmMap l).admMap (p * l.numPorts + q) = entry l.groundIdx (l.nodeMap p) (l.nodeMap q) := by
  have inner : ∀ (a : Nat) (m : Nat → Int) (i : Nat), i ≤ l.numPorts →
      ∀ k, (loop (fun port2 m k =>
        if k = a * l.numPorts + port2 then
          (if l.nodeMap a = l.groundIdx ∨ l.nodeMap port2 = l.groundIdx then -1
           else l.nodeMap a * l.groundIdx + l.nodeMap port2)
        else m k) i m) k =
        if a * l.numPorts ≤ k ∧ k < a * l.numPorts + i then
          entry l.groundIdx (l.nodeMap a) (l.nodeMap (k - a * l.numPorts)) else m k := by
    intro a m i hi
    induction i with
    | zero => intro k; rw [loop_zero, if_neg (by omega)]
    | succ i ih =>
      intro k
      rw [loop_succ]
      by_cases hk : k = a * l.numPorts + i
      · have h2 : a * l.numPorts ≤ k ∧ k < a * l.numPorts + (i + 1) := by omega
        have h3 : k - a * l.numPorts = i := by omega
        rw [if_pos hk, if_pos h2, h3]; rfl
      · rw [if_neg hk, ih (by omega) k]
        by_cases h1 : a * l.numPorts ≤ k ∧ k < a * l.numPorts + i
        · rw [if_pos h1, if_pos ⟨h1.1, by omega⟩]
        · rw [if_neg h1, if_neg (by omega)]
  have h := loop_inv (f := fun port1 m =>
      loop (fun port2 m k =>
        if k = port1 * l.numPorts + port2 then
          (if l.nodeMap port1 = l.groundIdx ∨ l.nodeMap port2 = l.groundIdx then -1
           else l.nodeMap port1 * l.groundIdx + l.nodeMap port2)
        else m k) l.numPorts m) (s := l.admMap)
    (P := fun i (m : Nat → Int) => ∀ a b, a < i → b < l.numPorts →
      m (a * l.numPorts + b) = entry l.groundIdx (l.nodeMap a) (l.nodeMap b)) l.numPorts
    (by intro a b ha; omega) ?_
  · exact h p q hp hq
  · intro i hi m hm a b ha hb
    rw [inner i m l.numPorts le_rfl]
    rcases Nat.lt_succ_iff_lt_or_eq.mp ha with h1 | rfl
    · have : (a + 1) * l.numPorts ≤ i * l.numPorts := Nat.mul_le_mul_right _ h1
      have e : (a + 1) * l.numPorts = a * l.numPorts + l.numPorts := by ring
      rw [if_neg (by omega)]
      exact hm a b h1 hb
    · rw [if_pos ⟨by omega, by omega⟩, Nat.add_sub_cancel_left]

/-- The node map after a request on a valid port. -/
def upd (m : Nat → Int) (p : Int) (v : Int) : Nat → Int := fun k => if k = p.toNat then v else m k

theorem rd_valid {α : Type _} {n : Nat} {a : Nat → α} {i : Int} (h : 0 ≤ i ∧ i < n) :
    rd n a i = some (a i.toNat) := if_pos h

theorem wr_valid {α : Type _} {n : Nat} {a : Nat → α} {i : Int} {v : α} (h : 0 ≤ i ∧ i < n) :
    wr n a i v = some (fun k => if k = i.toNat then v else a k) := if_pos h

/-- The request is granted. -/
def granted (l : Link) (p node : Int) : Bool := !l.locked && checkRules l p node

/-- Closed form of `setPort` given what `updateNodePointer` does on the moved link. -/
theorem setPort_eq (ptr : Link → Int → Option Link) (l : Link) (p node : Int) :
    setPort ptr l p node =
      ((ptr { l with
          nodeMap := if granted l p node then upd l.nodeMap p node else l.nodeMap
          admUpdate := l.admUpdate || (granted l p node && decide (l.nodeMap p.toNat ≠ node)) }
        p).map fun l' => (updateAdmMap l', granted l p node)) := by
  have hg : (!l.locked && checkRules l p node) = granted l p node := rfl
  unfold setPort
  rw [hg]
  cases hgr : granted l p node
  · simp only [Bool.false_eq_true, if_false, Bool.false_and, Bool.or_false]
    rw [Option.pure_def, Option.bind_eq_bind, Option.bind_some]
    cases ptr l p <;> rfl
  · have hv : 0 ≤ p ∧ p < l.numPorts := by
      have : checkRules l p node = true := by
        unfold granted at hgr; exact (Bool.and_eq_true _ _ ▸ hgr).2
      exact ((checkRules_iff l p node).mp this).1
    simp only [if_true, Bool.true_and]
    rw [rd_valid hv]
    by_cases hn : node = l.nodeMap p.toNat
    · have e : upd l.nodeMap p node = l.nodeMap := by
        funext k; unfold upd; split_ifs with h
        · rw [hn, h]
        · rfl
      rw [e, hn]
      simp only [ne_eq, not_true_eq_false, decide_false, Bool.or_false, Option.bind_eq_bind,
        Option.bind_some, if_false, Option.pure_def]
      cases ptr l p <;> rfl
    · rw [wr_valid hv]
      have hn' : decide (l.nodeMap p.toNat ≠ node) = true := by
        rw [decide_eq_true_eq]; exact fun h => hn h.symm
      rw [hn', Bool.or_true]
      simp only [ne_eq, hn, not_false_eq_true, Option.bind_eq_bind, Option.bind_some, if_true,
        Option.pure_def]
      unfold upd
      cases ptr _ p <;> rfl

theorem basic_ptr (l : Link) (p : Int) :
    updateNodePointerBasic l p = some { l with
      nodes := fun k => if validPort l p = true ∧ k = p.toNat then some (l.nodeMap k) else l.nodes k } := by
  unfold updateNodePointerBasic
  by_cases h : validPort l p = true
  · rw [if_pos h]
    have hv := (validPort_iff l p).mp h
    rw [rd_valid hv, Option.bind_eq_bind, Option.bind_some, wr_valid hv, Option.bind_eq_bind,
      Option.bind_some, Option.pure_def]
    congr 2
    funext k
    by_cases hk : k = p.toNat
    · rw [if_pos hk, if_pos ⟨h, hk⟩, hk]
    · rw [if_neg hk, if_neg (fun x => hk x.2)]
  · rw [if_neg h]
    congr 1
    cases l
    congr 1
    funext k
    rw [if_neg (fun x => h x.1)]

theorem fluid_ptr_valid (l : Link) (p : Int) (h : 0 ≤ p ∧ p < l.numPorts) :
    updateNodePointerFluid l p = updateNodePointerBasic l p := by
  unfold updateNodePointerBasic
  rw [if_pos ((validPort_iff l p).mpr h)]
  rfl

theorem fluid_ptr_invalid (l : Link) (p : Int) (h : ¬ (0 ≤ p ∧ p < l.numPorts)) :
    updateNodePointerFluid l p = none := by
  unfold updateNodePointerFluid rd
  rw [if_neg h]; rfl

/-- `setPort` of a basic link: what it returns. -/
def setPortTo (l : Link) (p node : Int) : Link :=
  updateAdmMap { l with
    nodeMap := if granted l p node then upd l.nodeMap p node else l.nodeMap
    admUpdate := l.admUpdate || (granted l p node && decide (l.nodeMap p.toNat ≠ node))
    nodes := fun k => if validPort l p = true ∧ k = p.toNat then
      some ((if granted l p node then upd l.nodeMap p node else l.nodeMap) k) else l.nodes k }

theorem setPort_basic (l : Link) (p node : Int) :
    setPort updateNodePointerBasic l p node = some (setPortTo l p node, granted l p node) := by
  rw [setPort_eq, basic_ptr]; rfl

theorem setPort_fluid_valid (l : Link) (p node : Int) (h : 0 ≤ p ∧ p < l.numPorts) :
    setPort updateNodePointerFluid l p node = setPort updateNodePointerBasic l p node := by
  rw [setPort_eq, setPort_eq]
  exact congrArg _ (fluid_ptr_valid { l with
    nodeMap := if granted l p node then upd l.nodeMap p node else l.nodeMap
    admUpdate := l.admUpdate || (granted l p node && decide (l.nodeMap p.toNat ≠ node)) } _ h)

theorem setPort_fluid_invalid (l : Link) (p node : Int) (h : ¬ (0 ≤ p ∧ p < l.numPorts)) :
    setPort updateNodePointerFluid l p node = none := by
  rw [setPort_eq]
  exact congrArg (Option.map _) (fluid_ptr_invalid { l with
    nodeMap := if granted l p node then upd l.nodeMap p node else l.nodeMap
    admUpdate := l.admUpdate || (granted l p node && decide (l.nodeMap p.toNat ≠ node)) } _ h)

theorem granted_iff (l : Link) (p node : Int) :
    granted l p node = true ↔ l.locked = false ∧ (0 ≤ p ∧ p < l.numPorts) ∧
      (0 ≤ node ∧ node ≤ l.groundIdx) ∧
      (node < l.groundIdx → ∀ q, q < l.numPorts → p ≠ (q : Int) → l.nodeMap q ≠ node) ∧
      l.rules p node = true := by
  rw [← checkRules_iff]; unfold granted; cases l.locked <;> simp

end Gunns.Ports
