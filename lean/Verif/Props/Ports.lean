import Verif.Link.PortLemmas
import Verif.Link.PortSpec
import Mathlib.Tactic.IntervalCases

/-!
# Ports of links (C19–C22)
-/

namespace Gunns.Props
open Gunns.Ports

/-! ## Auxiliary facts -/

theorem addresses_entry {g a b : Int} (ha : 0 ≤ a ∧ a ≤ g) (hb : 0 ≤ b ∧ b ≤ g) :
    Addresses g a b (entry g a b) := by
  constructor
  · intro h; unfold entry; rw [if_pos h]
  · intro h1 h2
    have hag : a < g := lt_of_le_of_ne ha.2 h1
    have hbg : b < g := lt_of_le_of_ne hb.2 h2
    unfold entry
    rw [if_neg (by tauto)]
    refine ⟨by nlinarith, by nlinarith, ?_, ?_⟩
    · rw [add_comm, Int.add_mul_ediv_right _ _ (by omega), Int.ediv_eq_zero_of_lt hb.1 hbg, zero_add]
    · rw [add_comm, Int.add_mul_emod_self_right, Int.emod_eq_of_lt hb.1 hbg]

theorem acceptable_iff {l : Link} (hl : LegalMap l.numPorts l.groundIdx l.nodeMap) (p node : Int) :
    granted l p node = true ↔ Acceptable l p node := by
  rw [granted_iff]
  unfold Acceptable
  constructor
  · rintro ⟨h1, h2, h3, h4, h5⟩
    refine ⟨h1, h2, ⟨?_, ?_⟩, h5⟩
    · intro q hq
      split_ifs
      · exact h3
      · exact hl.exist q hq
    · intro q r hq hr hqr
      split_ifs with e1 e2 e2
      · omega
      · intro he
        by_contra hc
        exact h4 (lt_of_le_of_ne h3.2 hc) r hr (fun h => e2 h.symm) he.symm
      · intro he
        by_contra hc
        rw [he] at hc
        exact h4 (lt_of_le_of_ne h3.2 hc) q hq (fun h => e1 h.symm) he
      · exact hl.apart q r hq hr hqr
  · rintro ⟨h1, h2, h3, h5⟩
    have hp : ((p.toNat : Nat) : Int) = p := Int.toNat_of_nonneg h2.1
    have hpn : p.toNat < l.numPorts := by omega
    have h3' := h3.exist p.toNat hpn
    rw [if_pos hp] at h3'
    refine ⟨h1, h2, h3', ?_, h5⟩
    intro hn q hq hpq he
    have := h3.apart p.toNat q hpn hq (by omega)
    rw [if_pos hp, if_neg (fun h => hpq h.symm)] at this
    have := this he.symm
    omega

@[simp] theorem setPortTo_numPorts (l : Link) (p n : Int) : (setPortTo l p n).numPorts = l.numPorts := rfl
@[simp] theorem setPortTo_groundIdx (l : Link) (p n : Int) : (setPortTo l p n).groundIdx = l.groundIdx := rfl
@[simp] theorem setPortTo_defaults (l : Link) (p n : Int) : (setPortTo l p n).defaults = l.defaults := rfl
@[simp] theorem setPortTo_rules (l : Link) (p n : Int) : (setPortTo l p n).rules = l.rules := rfl
@[simp] theorem setPortTo_locked (l : Link) (p n : Int) : (setPortTo l p n).locked = l.locked := rfl
theorem setPortTo_nodeMap (l : Link) (p n : Int) : (setPortTo l p n).nodeMap =
    if granted l p n then upd l.nodeMap p n else l.nodeMap := rfl

theorem moved_upd {n : Nat} {m : Nat → Int} {p node : Int} (hp : 0 ≤ p ∧ p < n) :
    Moved n m (upd m p node) p node := by
  intro q _
  unfold upd
  by_cases h : q = p.toNat
  · rw [if_pos h, if_pos (by omega)]
  · rw [if_neg h, if_neg (by omega)]

theorem granted_valid {l : Link} {p node : Int} (h : granted l p node = true) :
    0 ≤ p ∧ p < l.numPorts := ((granted_iff l p node).mp h).2.1

theorem setPortTo_legalMap {l : Link} (hl : LegalMap l.numPorts l.groundIdx l.nodeMap) (p node : Int) :
    LegalMap l.numPorts l.groundIdx (setPortTo l p node).nodeMap := by
  rw [setPortTo_nodeMap]
  by_cases h : granted l p node = true
  · rw [if_pos h]
    have hv := granted_valid h
    have := ((acceptable_iff hl p node).mp h).2.2.1
    have e : ∀ q, q < l.numPorts → upd l.nodeMap p node q = if (q : Int) = p then node else l.nodeMap q :=
      moved_upd hv
    refine ⟨fun q hq => ?_, fun q r hq hr hqr => ?_⟩
    · rw [e q hq]; exact this.exist q hq
    · rw [e q hq, e r hr]; exact this.apart q r hq hr hqr
  · rw [if_neg h]; exact hl

theorem setPortTo_legal {l : Link} (hl : Legal l) (p node : Int) : Legal (setPortTo l p node) := by
  have hm := setPortTo_legalMap hl.map p node
  refine ⟨hm, ?_, ?_, hl.defaults⟩
  · intro q hq
    show (if validPort l p = true ∧ q = p.toNat then some ((setPortTo l p node).nodeMap q)
      else l.nodes q) = some ((setPortTo l p node).nodeMap q)
    by_cases h : validPort l p = true ∧ q = p.toNat
    · rw [if_pos h]
    · rw [if_neg h, hl.pointers q hq, setPortTo_nodeMap]
      by_cases hg : granted l p node = true
      · rw [if_pos hg]
        have hv := granted_valid hg
        unfold upd
        rw [if_neg (fun e => h ⟨(validPort_iff l p).mpr hv, e⟩)]
      · rw [if_neg hg]
  · intro q r hq hr
    have e := updateAdmMap_at { l with
      nodeMap := if granted l p node then upd l.nodeMap p node else l.nodeMap
      admUpdate := l.admUpdate || (granted l p node && decide (l.nodeMap p.toNat ≠ node))
      nodes := fun k => if validPort l p = true ∧ k = p.toNat then
        some ((if granted l p node then upd l.nodeMap p node else l.nodeMap) k) else l.nodes k } q r hq hr
    have e' : (setPortTo l p node).admMap (q * (setPortTo l p node).numPorts + r) =
        entry l.groundIdx ((setPortTo l p node).nodeMap q) ((setPortTo l p node).nodeMap r) := e
    rw [e']
    exact addresses_entry (hm.exist q hq) (hm.exist r hr)

/-! ## C19: a single request -/

/-- C19, one request: whatever the arguments, the call is defined, it is granted exactly when it is
acceptable, a granted request moves that port and nothing else, a refused one moves nothing, the
update flag is raised exactly when the map changed, and legality is kept. -/
theorem c19_request {l : Link} (hl : Legal l) (p node : Int) :
    ∃ l' ok, setPort updateNodePointerBasic l p node = some (l', ok) ∧ Legal l' ∧
      (ok = true ↔ Acceptable l p node) ∧
      (ok = true → Moved l.numPorts l.nodeMap l'.nodeMap p node) ∧
      (ok = false → SameMap l.numPorts l.nodeMap l'.nodeMap) ∧
      (l'.admUpdate = true ↔ l.admUpdate = true ∨ ¬ SameMap l.numPorts l.nodeMap l'.nodeMap) := by
  refine ⟨_, _, setPort_basic l p node, setPortTo_legal hl p node, acceptable_iff hl.map p node,
    ?_, ?_, ?_⟩
  · intro h
    rw [setPortTo_nodeMap, if_pos h]
    exact moved_upd (granted_valid h)
  · intro h q _
    rw [setPortTo_nodeMap, h]; rfl
  · show (l.admUpdate || (granted l p node && decide (l.nodeMap p.toNat ≠ node))) = true ↔ _
    rw [setPortTo_nodeMap]
    cases hg : granted l p node
    · simp [SameMap]
    · have hv := granted_valid hg
      simp only [Bool.true_and, Bool.or_eq_true, decide_eq_true_eq, if_true]
      refine or_congr_right ?_
      constructor
      · intro h hs
        have := hs p.toNat (by omega)
        unfold upd at this
        rw [if_pos rfl] at this
        exact h this
      · intro h he
        apply h
        intro q _
        unfold upd
        split_ifs with e
        · rw [e]; exact he
        · rfl

/-! ## C19: initialisation -/

/-- The invariant of `registerNodes` during initialisation: ports below `i` hold the requested node
or -1. -/
theorem register_fresh (n : Nat) (g : Int) (rules : Int → Int → Bool) (map : Nat → Int) (i : Nat)
    (hi : i ≤ n) :
    ∃ l, loop (fun i acc => do
        let l ← acc
        let r ← setPort updateNodePointerBasic
          { l with defaults := fun k => if k = i then map i else l.defaults k } i (map i)
        return r.1) i (some (allocate n g rules false)) = some l ∧
      l.numPorts = n ∧ l.groundIdx = g ∧ l.rules = rules ∧ l.locked = false ∧
      (∀ q, q < i → l.defaults q = map q) ∧
      (∀ q, q < i → l.nodeMap q = map q ∨ l.nodeMap q = -1) ∧
      (∀ q, i ≤ q → l.nodeMap q = -1) ∧
      (∀ q, q < i → l.nodes q = some (l.nodeMap q)) ∧
      (∀ q, q < n → l.nodeMap q ≠ -1 → 0 ≤ l.nodeMap q ∧ l.nodeMap q ≤ g ∧ rules q (l.nodeMap q) = true) ∧
      (∀ q r, q < n → r < n → q ≠ r → l.nodeMap q ≠ -1 → l.nodeMap q = l.nodeMap r → l.nodeMap q = g) ∧
      (LegalMap n g map → (∀ q, q < n → rules q (map q) = true) → ∀ q, q < i → l.nodeMap q = map q) ∧
      (0 < i → ∀ q r, q < n → r < n → l.admMap (q * n + r) = entry g (l.nodeMap q) (l.nodeMap r)) := by
  induction i with
  | zero =>
    exact ⟨_, rfl, rfl, rfl, rfl, rfl, by intros; omega, by intros; omega, fun _ _ => rfl,
      by intros; omega, fun _ _ h => (h rfl).elim, fun _ _ _ _ _ h => (h rfl).elim,
      by intros; omega, by intros; omega⟩
  | succ i ih =>
    obtain ⟨l, hl, hn, hg, hr, hlk, hd, hm, hm1, hp, hex, hap, hall, hadm⟩ := ih (by omega)
    rw [loop_succ, hl]
    set l0 : Link := { l with defaults := fun k => if k = i then map i else l.defaults k } with hl0
    rw [Option.bind_eq_bind, Option.bind_some, setPort_basic, Option.bind_eq_bind, Option.bind_some,
      Option.pure_def]
    dsimp only
    have hgi := granted_iff l0 i (map i)
    have e0 : ∀ q, (setPortTo l0 i (map i)).nodeMap q =
        if granted l0 i (map i) = true ∧ q = i then map i else l.nodeMap q := by
      intro q
      rw [setPortTo_nodeMap]
      by_cases h : granted l0 i (map i) = true
      · rw [if_pos h]; unfold upd
        by_cases hq : q = i
        · rw [if_pos (by simpa using hq), if_pos ⟨h, hq⟩]
        · rw [if_neg (by simpa using hq), if_neg (fun x => hq x.2)]
      · rw [if_neg h, if_neg (fun x => h x.1)]
    have hval : validPort l0 (i : Int) = true := by
      rw [validPort_iff]; show 0 ≤ (i : Int) ∧ (i : Int) < (l.numPorts : Int); omega
    refine ⟨_, rfl, hn, hg, hr, hlk, ?_, ?_, ?_, ?_, ?_, ?_, ?_, ?_⟩
    · intro q hq
      show (if q = i then map i else l.defaults q) = map q
      split_ifs with h
      · rw [h]
      · exact hd q (by omega)
    · intro q hq
      rw [e0]
      split_ifs with h
      · left; rw [h.2]
      · rcases Nat.lt_succ_iff_lt_or_eq.mp hq with h1 | h1
        · exact hm q h1
        · right; exact hm1 q (by omega)
    · intro q hq
      rw [e0, if_neg (by omega)]
      exact hm1 q (by omega)
    · intro q hq
      show (if validPort l0 (i : Int) = true ∧ q = (i : Int).toNat then
        some ((setPortTo l0 i (map i)).nodeMap q) else l.nodes q) = _
      by_cases h : q = i
      · rw [if_pos ⟨hval, by simpa using h⟩]
      · rw [if_neg (fun x => h (by simpa using x.2)), hp q (by omega), e0, if_neg (fun x => h x.2)]
    · intro q hq
      rw [e0]
      split_ifs with h
      · intro _
        have := hgi.mp h.1
        refine ⟨this.2.2.1.1, ?_, ?_⟩
        · have := this.2.2.1.2; rw [hl0] at this; exact hg ▸ this
        · have := this.2.2.2.2; rw [hl0, h.2] at *; exact hr ▸ this
      · exact hex q hq
    · intro q r hq hrn hqr
      rw [e0, e0]
      by_cases h1 : granted l0 i (map i) = true
      · have hgr := hgi.mp h1
        have hle : map i ≤ g := hg ▸ hgr.2.2.1.2
        have hdup : map i < g → ∀ q, q < n → i ≠ q → l.nodeMap q ≠ map i := by
          intro hlt q hq hne
          exact hgr.2.2.2.1 (by show map i < l.groundIdx; omega) q (by show q < l.numPorts; omega)
            (by omega)
        by_cases hqi : q = i
        · rw [if_pos ⟨h1, hqi⟩, if_neg (fun x => hqr (hqi.trans x.2.symm))]
          intro _ he
          by_contra hc
          exact hdup (lt_of_le_of_ne hle hc) r hrn (by omega) he.symm
        · rw [if_neg (fun x => hqi x.2)]
          by_cases hri : r = i
          · rw [if_pos ⟨h1, hri⟩]
            intro _ he
            by_contra hc
            rw [he] at hc
            exact hdup (lt_of_le_of_ne hle hc) q hq (by omega) he
          · rw [if_neg (fun x => hri x.2)]
            exact hap q r hq hrn hqr
      · rw [if_neg (fun x => h1 x.1), if_neg (fun x => h1 x.1)]
        exact hap q r hq hrn hqr
    · intro hleg hrul q hq
      have hgr : granted l0 i (map i) = true := by
        rw [hgi]
        have hb := hleg.exist i (by omega)
        refine ⟨hlk, ⟨by omega, by show (i : Int) < (l.numPorts : Int); omega⟩,
          ⟨hb.1, by show map i ≤ l.groundIdx; rw [hg]; exact hb.2⟩, ?_, ?_⟩
        · intro hlt r hrn hne he
          have hlt' : map i < l.groundIdx := hlt
          have hrn' : r < l.numPorts := hrn
          have he' : l.nodeMap r = map i := he
          by_cases hri : r < i
          · have h2 := hall hleg hrul r hri
            have := hleg.apart r i (by omega) (by omega) (by omega) (by rw [← h2, he'])
            omega
          · have := hm1 r (by omega)
            omega
        · show l.rules i (map i) = true
          rw [hr]; exact hrul i (by omega)
      rw [e0]
      split_ifs with h
      · rw [h.2]
      · have : q ≠ i := fun x => h ⟨hgr, x⟩
        exact hall hleg hrul q (by omega)
    · intro _ q r hq hr'
      have e := updateAdmMap_at { l0 with
        nodeMap := if granted l0 i (map i) then upd l0.nodeMap i (map i) else l0.nodeMap
        admUpdate := l0.admUpdate || (granted l0 i (map i) && decide (l0.nodeMap (i : Int).toNat ≠ map i))
        nodes := fun k => if validPort l0 i = true ∧ k = (i : Int).toNat then
          some ((if granted l0 i (map i) then upd l0.nodeMap i (map i) else l0.nodeMap) k)
          else l0.nodes k } q r (by show q < l.numPorts; omega) (by show r < l.numPorts; omega)
      have e' : (setPortTo l0 i (map i)).admMap (q * l.numPorts + r) =
        entry l.groundIdx ((setPortTo l0 i (map i)).nodeMap q) ((setPortTo l0 i (map i)).nodeMap r) := e
      rw [hn, hg] at e'
      exact e'

/-- C19, start: initialisation never has undefined behaviour; it succeeds exactly for a legal port
map that obeys the link's rule, and then the link is legal and sits on that map. -/
theorem c19_init (n : Nat) (g : Int) (rules : Int → Int → Bool) (locked : Bool) (map : Nat → Int)
    (hn : 1 ≤ n) :
    (LegalMap n g map ∧ (∀ p, p < n → rules p (map p) = true) ∧
      ∃ l, initLink updateNodePointerBasic n g rules locked map = .ok l ∧ Legal l ∧
        l.numPorts = n ∧ l.groundIdx = g ∧ l.rules = rules ∧ l.locked = locked ∧
        SameMap n l.nodeMap map ∧ SameMap n l.defaults map ∧ l.control = .ready) ∨
    (¬ (LegalMap n g map ∧ ∀ p, p < n → rules p (map p) = true) ∧
      initLink updateNodePointerBasic n g rules locked map = .exception) := by
  obtain ⟨l, hl, hnp, hg, hr, hlk, hd, hm, hm1, hp, hex, hap, hall, hadm⟩ :=
    register_fresh n g rules map n le_rfl
  have hreg : registerNodes updateNodePointerBasic map (allocate n g rules false) = some l := hl
  by_cases hleg : LegalMap n g map ∧ ∀ p, p < n → rules p (map p) = true
  · left
    have hm' := hall hleg.1 hleg.2
    have hc : (List.range n).all (fun p => decide (0 ≤ l.nodeMap p) && (l.nodes p).isSome) = true := by
      rw [List.all_eq_true]
      intro p hp'
      have hp' := List.mem_range.mp hp'
      rw [hp p hp', Option.isSome_some, Bool.and_true, decide_eq_true_eq, hm' p hp']
      exact (hleg.1.exist p hp').1
    refine ⟨hleg.1, hleg.2, restartCommon { l with locked := locked }, ?_, ?_, hnp, hg, hr, rfl,
      hm', hd, rfl⟩
    · unfold initLink
      rw [if_neg (by omega), hreg]
      dsimp only
      rw [if_pos hc]
    · refine ⟨⟨?_, ?_⟩, ?_, ?_, ⟨?_, ?_⟩⟩
      · intro p hp'
        have hp' : p < n := by rw [← hnp]; exact hp'
        show 0 ≤ l.nodeMap p ∧ l.nodeMap p ≤ l.groundIdx
        rw [hm' p hp', hg]; exact hleg.1.exist p hp'
      · intro p q hp' hq
        have hp' : p < n := by rw [← hnp]; exact hp'
        have hq : q < n := by rw [← hnp]; exact hq
        show p ≠ q → l.nodeMap p = l.nodeMap q → l.nodeMap p = l.groundIdx
        rw [hm' p hp', hm' q hq, hg]; exact hleg.1.apart p q hp' hq
      · intro p hp'
        exact hp p (by rw [← hnp]; exact hp')
      · intro p q hp' hq
        have hp' : p < n := by rw [← hnp]; exact hp'
        have hq : q < n := by rw [← hnp]; exact hq
        show Addresses l.groundIdx (l.nodeMap p) (l.nodeMap q) (l.admMap (p * l.numPorts + q))
        rw [hnp, hadm (by omega) p q hp' hq, hg]
        refine addresses_entry ?_ ?_
        · rw [hm' p hp']; exact hleg.1.exist p hp'
        · rw [hm' q hq]; exact hleg.1.exist q hq
      · intro p hp'
        have hp' : p < n := by rw [← hnp]; exact hp'
        show 0 ≤ l.defaults p ∧ l.defaults p ≤ l.groundIdx
        rw [hd p hp', hg]; exact hleg.1.exist p hp'
      · intro p q hp' hq
        have hp' : p < n := by rw [← hnp]; exact hp'
        have hq : q < n := by rw [← hnp]; exact hq
        show p ≠ q → l.defaults p = l.defaults q → l.defaults p = l.groundIdx
        rw [hd p hp', hd q hq, hg]; exact hleg.1.apart p q hp' hq
  · right
    refine ⟨hleg, ?_⟩
    unfold initLink
    rw [if_neg (by omega), hreg]
    dsimp only
    rw [if_neg]
    intro hc
    rw [List.all_eq_true] at hc
    have h0 : ∀ p, p < n → 0 ≤ l.nodeMap p := by
      intro p hp'
      have := hc p (List.mem_range.mpr hp')
      rw [Bool.and_eq_true, decide_eq_true_eq] at this
      exact this.1
    have h1 : ∀ p, p < n → l.nodeMap p = map p := by
      intro p hp'
      rcases hm p hp' with h | h
      · exact h
      · have := h0 p hp'; omega
    apply hleg
    refine ⟨⟨?_, ?_⟩, ?_⟩
    · intro p hp'
      have := hex p hp' (by have := h0 p hp'; omega)
      rw [h1 p hp'] at this
      exact ⟨this.1, this.2.1⟩
    · intro p q hp' hq hpq he
      have := hap p q hp' hq hpq (by have := h0 p hp'; omega) (by rw [h1 p hp', h1 q hq]; exact he)
      rw [h1 p hp'] at this; exact this
    · intro p hp'
      have := hex p hp' (by have := h0 p hp'; omega)
      rw [h1 p hp'] at this
      exact this.2.2

/-! ## C19: histories -/

/-- One pass of `registerNodes` over a legal link with a legal map. -/
theorem register_legal {l : Link} (hl : Legal l) {map : Nat → Int}
    (hmap : LegalMap l.numPorts l.groundIdx map) (hd : l.defaults = map) (i : Nat)
    (hi : i ≤ l.numPorts) :
    ∃ l', loop (fun i acc => do
        let l ← acc
        let r ← setPort updateNodePointerBasic
          { l with defaults := fun k => if k = i then map i else l.defaults k } i (map i)
        return r.1) i (some l) = some l' ∧
      Legal l' ∧ l'.numPorts = l.numPorts ∧ l'.groundIdx = l.groundIdx ∧ l'.rules = l.rules ∧
      l'.locked = l.locked ∧ l'.defaults = map ∧
      (l.locked = true → l'.nodeMap = l.nodeMap) ∧
      (∀ q, i ≤ q → l'.nodeMap q = l.nodeMap q) ∧
      (l.locked = false → (∀ q, q < l.numPorts → l.rules q (map q) = true) →
        (∀ a b, a < b → a < i → b < l.numPorts → map a < l.groundIdx → l.nodeMap b ≠ map a) →
        ∀ q, q < i → l'.nodeMap q = map q) ∧
      (∀ a, a < i → l'.nodeMap a = map a ∨ l'.nodeMap a = l.nodeMap a) ∧
      (∀ a b, a < b → a < i → b < l.numPorts → map a < l.groundIdx → l.nodeMap b = map a →
        l'.nodeMap a = l.nodeMap a) ∧
      l'.control = l.control := by
  induction i with
  | zero =>
    exact ⟨l, rfl, hl, rfl, rfl, rfl, rfl, hd, fun _ => rfl, fun _ _ => rfl, by intros; omega,
      by intros; omega, by intros; omega, rfl⟩
  | succ i ih =>
    obtain ⟨t, ht, hlt, hn, hg, hr, hlk, hdt, hlock, hge, hall, hor, hblk, hctl⟩ := ih (by omega)
    rw [loop_succ, ht]
    have hdd : (fun k => if k = i then map i else t.defaults k) = t.defaults := by
      funext k; rw [hdt]; split_ifs with h
      · rw [h]
      · rfl
    rw [Option.bind_eq_bind, Option.bind_some, hdd]
    have ht0 : ({ t with defaults := t.defaults } : Link) = t := rfl
    rw [setPort_basic, Option.bind_eq_bind, Option.bind_some, Option.pure_def]
    have hgi := granted_iff t i (map i)
    have e0 : ∀ q, (setPortTo t i (map i)).nodeMap q =
        if granted t i (map i) = true ∧ q = i then map i else t.nodeMap q := by
      intro q
      rw [setPortTo_nodeMap]
      by_cases h : granted t i (map i) = true
      · rw [if_pos h]; unfold upd
        by_cases hq : q = i
        · rw [if_pos (by simpa using hq), if_pos ⟨h, hq⟩]
        · rw [if_neg (by simpa using hq), if_neg (fun x => hq x.2)]
      · rw [if_neg h, if_neg (fun x => h x.1)]
    refine ⟨_, rfl, setPortTo_legal hlt _ _, hn, hg, hr, hlk, hdt, ?_, ?_, ?_, ?_, ?_, hctl⟩
    · intro h
      rw [setPortTo_nodeMap, if_neg]
      · exact hlock h
      · intro hc
        have := (hgi.mp hc).1
        rw [hlk, h] at this
        exact Bool.noConfusion this
    · intro q hq
      rw [e0, if_neg (by omega)]
      exact hge q (by omega)
    · intro h1 h2 h3 q hq
      have hi' := hall h1 h2 (fun a b hab ha => h3 a b hab (by omega))
      have hgr : granted t i (map i) = true := by
        rw [hgi]
        have hb := hmap.exist i (by omega)
        refine ⟨hlk.trans h1, ⟨by omega, by omega⟩, ⟨hb.1, by omega⟩, ?_, ?_⟩
        · intro hlt r hrn hne he
          by_cases hri : r < i
          · have h2 := hi' r hri
            have := hmap.apart r i (by omega) (by omega) (by omega) (by rw [← h2, he])
            omega
          · have := hge r (by omega)
            exact h3 i r (by omega) (by omega) (by omega) (by omega) (by rw [← this, he])
        · rw [hr]; exact h2 i (by omega)
      rw [e0]
      split_ifs with h
      · rw [h.2]
      · have : q ≠ i := fun x => h ⟨hgr, x⟩
        exact hi' q (by omega)
    · intro a ha
      rw [e0]
      split_ifs with h
      · left; rw [h.2]
      · rcases Nat.lt_succ_iff_lt_or_eq.mp ha with h1 | h1
        · exact hor a h1
        · right; exact hge a (by omega)
    · intro a b hab ha hb hag he
      rw [e0, if_neg]
      · rcases Nat.lt_succ_iff_lt_or_eq.mp ha with h1 | h1
        · exact hblk a b hab h1 hb hag he
        · exact hge a (by omega)
      · rintro ⟨hgr, rfl⟩
        exact (hgi.mp hgr).2.2.2.1 (by omega) b (by omega) (by omega) (by rw [hge b (by omega), he])

theorem legal_congr {l l' : Link} (hl : Legal l) (h1 : l'.numPorts = l.numPorts)
    (h2 : l'.groundIdx = l.groundIdx) (h3 : l'.nodeMap = l.nodeMap) (h4 : l'.nodes = l.nodes)
    (h5 : l'.admMap = l.admMap) (h6 : l'.defaults = l.defaults) : Legal l' := by
  cases l; cases l'; dsimp only at *; subst h1 h2 h3 h4 h5 h6
  exact ⟨hl.map, hl.pointers, hl.matrix, hl.defaults⟩

/-- What a step of `processUserPortCommand` makes of a basic link. -/
theorem process_basic {l : Link} (hl : Legal l) :
    ∃ l', processUser updateNodePointerBasic l = some l' ∧ Legal l' ∧
      l'.numPorts = l.numPorts ∧ l'.groundIdx = l.groundIdx ∧ l'.rules = l.rules ∧
      l'.locked = l.locked ∧ l'.defaults = l.defaults ∧
      ((l.control = .ready ∨ l.control = .failed) → l' = l) ∧
      (¬ (l.control = .ready ∨ l.control = .failed) →
        l'.userPort = -1 ∧ l'.userNode = -1 ∧
        (match asked l with
         | none => l'.control = .failed ∧ l'.nodeMap = l.nodeMap ∧ l'.admUpdate = l.admUpdate
         | some (p, n) =>
           l'.control = (if granted l p n then .ready else .failed) ∧
           l'.nodeMap = (setPortTo l p n).nodeMap ∧ l'.admUpdate = (setPortTo l p n).admUpdate)) := by
  have key : ∀ (l0 : Link), Legal l0 → l0.control = .execute →
      ∃ l', (do
        let (l', ok) ← setPort updateNodePointerBasic l0 l0.userPort l0.userNode
        return ({ l' with
          control := if ok then .ready else .failed
          userPort := -1
          userNode := -1 } : Link)) = some l' ∧ Legal l' ∧
        l'.numPorts = l0.numPorts ∧ l'.groundIdx = l0.groundIdx ∧ l'.rules = l0.rules ∧
        l'.locked = l0.locked ∧ l'.defaults = l0.defaults ∧
        l'.userPort = -1 ∧ l'.userNode = -1 ∧
        l'.control = (if granted l0 l0.userPort l0.userNode then .ready else .failed) ∧
        l'.nodeMap = (setPortTo l0 l0.userPort l0.userNode).nodeMap ∧
        l'.admUpdate = (setPortTo l0 l0.userPort l0.userNode).admUpdate := by
    intro l0 hl0 _
    rw [setPort_basic]
    exact ⟨_, rfl, legal_congr (setPortTo_legal hl0 l0.userPort l0.userNode) rfl rfl rfl rfl rfl rfl,
      rfl, rfl, rfl, rfl, rfl, rfl, rfl, rfl, rfl, rfl⟩
  unfold processUser asked
  cases hc : l.control
  · exact ⟨l, by simp [hc], hl, rfl, rfl, rfl, rfl, rfl, fun _ => rfl, fun h => (h (Or.inr rfl)).elim⟩
  · exact ⟨l, by simp [hc], hl, rfl, rfl, rfl, rfl, rfl, fun _ => rfl, fun h => (h (Or.inl rfl)).elim⟩
  · obtain ⟨l', h1, h2, h3, h4, h5, h6, h7, h8⟩ := key l hl hc
    refine ⟨l', ?_, h2, h3, h4, h5, h6, h7, by simp, fun _ => ⟨h8.1, h8.2.1, h8.2.2⟩⟩
    simp only [hc, reduceCtorEq, if_false, Option.pure_def, Option.bind_eq_bind, Option.bind_some,
      if_true]
    exact h1
  · obtain ⟨l', h1, h2, h3, h4, h5, h6, h7, h8⟩ := key { l with
      userNode := l.groundIdx
      control := .execute } (legal_congr hl rfl rfl rfl rfl rfl rfl) rfl
    refine ⟨l', ?_, h2, h3, h4, h5, h6, h7, by simp, fun _ => ⟨h8.1, h8.2.1, h8.2.2⟩⟩
    simp only [reduceCtorEq, if_false, Option.pure_def, Option.bind_eq_bind, Option.bind_some,
      if_true]
    exact h1
  · by_cases hv : 0 ≤ l.userPort ∧ l.userPort < l.numPorts
    · obtain ⟨l', h1, h2, h3, h4, h5, h6, h7, h8⟩ := key { l with
        userNode := l.defaults l.userPort.toNat
        control := .execute } (legal_congr hl rfl rfl rfl rfl rfl rfl) rfl
      refine ⟨l', ?_, h2, h3, h4, h5, h6, h7, by simp, fun _ => ⟨h8.1, h8.2.1, ?_⟩⟩
      · simp only [if_true, (validPort_iff l l.userPort).mpr hv, rd_valid hv, Option.pure_def,
          Option.bind_eq_bind, Option.bind_some]
        exact h1
      · rw [if_pos hv]; exact h8.2.2
    · refine ⟨{ l with
        control := .failed
        userPort := -1
        userNode := -1 }, ?_, legal_congr hl rfl rfl rfl rfl rfl rfl, rfl, rfl, rfl, rfl, rfl,
        by simp, fun _ => ⟨rfl, rfl, ?_⟩⟩
      · have : validPort l l.userPort = false := by
          rw [Bool.eq_false_iff]; exact fun h => hv ((validPort_iff l _).mp h)
        simp [this]
      · rw [if_neg hv]; exact ⟨rfl, rfl, rfl⟩

/-- What a restart makes of a basic link. -/
theorem restart_basic {l : Link} (hl : Legal l) :
    ∃ l', Ports.restart updateNodePointerBasic l = some l' ∧ Legal l' ∧
      l'.numPorts = l.numPorts ∧ l'.groundIdx = l.groundIdx ∧ l'.rules = l.rules ∧
      l'.locked = l.locked ∧ l'.defaults = l.defaults ∧
      (l.locked = true → l'.nodeMap = l.nodeMap) ∧
      (l.locked = false → (∀ q, q < l.numPorts → l.rules q (l.defaults q) = true) →
        (∀ a b, a < b → b < l.numPorts → l.defaults a < l.groundIdx → l.nodeMap b ≠ l.defaults a) →
        ∀ q, q < l.numPorts → l'.nodeMap q = l.defaults q) ∧
      (∀ q, q < l.numPorts → l'.nodeMap q = l.defaults q ∨ l'.nodeMap q = l.nodeMap q) ∧
      (∀ a b, a < b → b < l.numPorts → l.defaults a < l.groundIdx → l.nodeMap b = l.defaults a →
        l'.nodeMap a = l.nodeMap a) ∧
      l'.control = .ready := by
  obtain ⟨l', h1, h2, h3, h4, h5, h6, h7, h8, _, h9, h10, h11, h12⟩ :=
    register_legal (l := restartCommon l) (map := l.defaults)
      (legal_congr hl rfl rfl rfl rfl rfl rfl) hl.defaults rfl l.numPorts le_rfl
  exact ⟨l', h1, h2, h3, h4, h5, h6, h7, h8,
    fun a b c => h9 a b (fun x y hxy _ hy => c x y hxy hy), h10,
    fun a b hab hb => h11 a b hab (show a < l.numPorts by omega) hb, h12⟩

theorem op_basic {l : Link} (hl : Legal l) (o : Op) :
    ∃ l', o.run updateNodePointerBasic l = some l' ∧ Legal l' ∧
      l'.numPorts = l.numPorts ∧ l'.groundIdx = l.groundIdx ∧ l'.defaults = l.defaults ∧
      (o.keepsFlag = true →
        (l'.admUpdate = true ↔ l.admUpdate = true ∨ ¬ SameMap l.numPorts l.nodeMap l'.nodeMap)) := by
  have keep : ∀ {l' : Link}, l'.nodeMap = l.nodeMap → l'.admUpdate = l.admUpdate →
      (l'.admUpdate = true ↔ l.admUpdate = true ∨ ¬ SameMap l.numPorts l.nodeMap l'.nodeMap) := by
    intro l' h1 h2
    rw [h1, h2]; simp [SameMap]
  have flag : ∀ p node, ((setPortTo l p node).admUpdate = true ↔
      l.admUpdate = true ∨ ¬ SameMap l.numPorts l.nodeMap (setPortTo l p node).nodeMap) := by
    intro p node
    obtain ⟨l', ok, h1, h2, _, _, _, h6⟩ := c19_request hl p node
    rw [setPort_basic] at h1
    have : setPortTo l p node = l' := (Prod.ext_iff.mp (Option.some.inj h1)).1
    rw [this]; exact h6
  cases o with
  | set p node =>
    refine ⟨setPortTo l p node, ?_, setPortTo_legal hl p node, rfl, rfl, rfl, fun _ => flag p node⟩
    show (setPort updateNodePointerBasic l p node).map Prod.fst = _
    rw [setPort_basic]; rfl
  | panel p node c =>
    exact ⟨_, rfl, legal_congr hl rfl rfl rfl rfl rfl rfl, rfl, rfl, rfl, fun _ => keep rfl rfl⟩
  | process =>
    obtain ⟨l', h1, h2, h3, h4, _, _, h7, h8, h9⟩ := process_basic hl
    refine ⟨l', h1, h2, h3, h4, h7, fun _ => ?_⟩
    by_cases hc : l.control = .ready ∨ l.control = .failed
    · rw [h8 hc]; exact keep rfl rfl
    · have := (h9 hc).2.2
      cases ha : asked l with
      | none => rw [ha] at this; exact keep this.2.1 this.2.2
      | some r =>
        obtain ⟨p, node⟩ := r
        rw [ha] at this
        dsimp only at this
        rw [this.2.1, this.2.2]
        exact flag p node
  | poll =>
    exact ⟨_, rfl, legal_congr hl rfl rfl rfl rfl rfl rfl, rfl, rfl, rfl, fun h => Bool.noConfusion h⟩
  | lock b =>
    exact ⟨_, rfl, legal_congr hl rfl rfl rfl rfl rfl rfl, rfl, rfl, rfl, fun _ => keep rfl rfl⟩
  | rules r =>
    exact ⟨_, rfl, legal_congr hl rfl rfl rfl rfl rfl rfl, rfl, rfl, rfl, fun _ => keep rfl rfl⟩
  | restart =>
    obtain ⟨l', h1, h2, h3, h4, _, _, h7, _⟩ := restart_basic hl
    exact ⟨l', h1, h2, h3, h4, h7, fun h => Bool.noConfusion h⟩

/-- C19: whatever sequence of requests, user commands, locks, rule changes, polls and restarts, with
any integers as port and node numbers, the link never leaves its arrays and stays legal. -/
theorem c19_history (ops : List Op) {l : Link} (hl : Legal l) :
    ∃ l', runOps updateNodePointerBasic ops l = some l' ∧ Legal l' ∧ l'.numPorts = l.numPorts ∧
      l'.groundIdx = l.groundIdx ∧ l'.defaults = l.defaults := by
  induction ops generalizing l with
  | nil => exact ⟨l, rfl, hl, rfl, rfl, rfl⟩
  | cons o os ih =>
    obtain ⟨l1, h1, h2, h3, h4, h5, _⟩ := op_basic hl o
    obtain ⟨l2, g1, g2, g3, g4, g5⟩ := ih h2
    refine ⟨l2, ?_, g2, g3.trans h3, g4.trans h4, g5.trans h5⟩
    show (o.run updateNodePointerBasic l).bind _ = _
    rw [h1]; exact g1

/-- C19: between two polls the update flag is raised exactly when some operation changed the map. -/
theorem c19_flag (ops : List Op) {l l' : Link} (hl : Legal l) (hk : ∀ o ∈ ops, o.keepsFlag = true)
    (h : runOps updateNodePointerBasic ops (needUpdate l).1 = some l') :
    (needUpdate l').2 = true ↔ Changes updateNodePointerBasic ops (needUpdate l).1 := by
  have gen : ∀ (ops : List Op) (l : Link), Legal l → (∀ o ∈ ops, o.keepsFlag = true) →
      ∀ l', runOps updateNodePointerBasic ops l = some l' →
      (l'.admUpdate = true ↔ l.admUpdate = true ∨ Changes updateNodePointerBasic ops l) := by
    intro ops
    induction ops with
    | nil =>
      intro l _ _ l' h
      have : l = l' := Option.some.inj h
      rw [← this]; simp [Changes]
    | cons o os ih =>
      intro l hl hk l' h
      obtain ⟨l1, h1, h2, h3, h4, h5, h6⟩ := op_basic hl o
      have h' : runOps updateNodePointerBasic os l1 = some l' := by
        have : (o.run updateNodePointerBasic l).bind (runOps updateNodePointerBasic os) = some l' := h
        rw [h1] at this; exact this
      rw [ih l1 h2 (fun x hx => hk x (List.mem_cons_of_mem _ hx)) l' h',
        h6 (hk o List.mem_cons_self), or_assoc]
      refine or_congr_right ?_
      show _ ↔ ∃ l'', o.run updateNodePointerBasic l = some l'' ∧ _
      constructor
      · intro hh; exact ⟨l1, h1, hh⟩
      · rintro ⟨l2, g1, g2⟩
        rw [h1] at g1
        have := Option.some.inj g1
        rw [this]; exact g2
  have := gen ops (needUpdate l).1 (legal_congr hl rfl rfl rfl rfl rfl rfl) hk l' h
  show l'.admUpdate = true ↔ _
  rw [this]
  simp [needUpdate]

/-! ## C21 -/

/-- C21: after processing a command the panel is cleared and reads READY if the port was moved as
asked, FAILED if the request was refused; without a command nothing changes. -/
theorem c21_panel {l : Link} (hl : Legal l) :
    ∃ l', processUser updateNodePointerBasic l = some l' ∧
      ((l.control = .ready ∨ l.control = .failed) → l' = l) ∧
      (¬ (l.control = .ready ∨ l.control = .failed) →
        l'.userPort = -1 ∧ l'.userNode = -1 ∧
        ((l'.control = .ready ∧ ∃ p node, asked l = some (p, node) ∧ Acceptable l p node ∧
            Moved l.numPorts l.nodeMap l'.nodeMap p node) ∨
         (l'.control = .failed ∧ (∀ p node, asked l = some (p, node) → ¬ Acceptable l p node) ∧
            SameMap l.numPorts l.nodeMap l'.nodeMap))) := by
  obtain ⟨l', h1, h2, h3, h4, _, _, h7, h8, h9⟩ := process_basic hl
  refine ⟨l', h1, h8, fun hc => ?_⟩
  obtain ⟨h10, h11, h12⟩ := h9 hc
  refine ⟨h10, h11, ?_⟩
  cases ha : asked l with
  | none =>
    rw [ha] at h12
    exact Or.inr ⟨h12.1, fun _ _ h => (Option.some_ne_none _ h.symm).elim, fun p _ => by rw [h12.2.1]⟩
  | some r =>
    obtain ⟨p, node⟩ := r
    rw [ha] at h12
    dsimp only at h12
    cases hg : granted l p node
    · rw [hg] at h12
      refine Or.inr ⟨h12.1, ?_, ?_⟩
      · intro p' n' he
        have := Option.some.inj he
        have e1 : p = p' := congrArg Prod.fst this
        have e2 : node = n' := congrArg Prod.snd this
        subst e1 e2
        intro hacc
        rw [(acceptable_iff hl.map p node).mpr hacc] at hg
        exact Bool.noConfusion hg
      · intro q _
        rw [h12.2.1, setPortTo_nodeMap, hg]; rfl
    · rw [hg] at h12
      refine Or.inl ⟨h12.1, p, node, rfl, (acceptable_iff hl.map p node).mp hg, ?_⟩
      rw [h12.2.1, setPortTo_nodeMap, if_pos hg]
      exact moved_upd (granted_valid hg)

/-- C21: a command is executed once: processing again without a new command does nothing. -/
theorem c21_once {l l' : Link} (hl : Legal l)
    (h : processUser updateNodePointerBasic l = some l') :
    processUser updateNodePointerBasic l' = some l' := by
  obtain ⟨l1, h1, h2, h3⟩ := c21_panel hl
  rw [h1] at h
  have e := Option.some.inj h
  subst e
  obtain ⟨l2, g1, g2, _⟩ := c21_panel (l := l1) (by
    obtain ⟨l3, k1, k2, _⟩ := process_basic hl
    rw [h1] at k1
    rw [Option.some.inj k1]; exact k2)
  have hc : l1.control = .ready ∨ l1.control = .failed := by
    by_cases hc : l.control = .ready ∨ l.control = .failed
    · rw [h2 hc]; exact hc
    · rcases (h3 hc).2.2 with h | h
      · exact Or.inl h.1
      · exact Or.inr h.1
  rw [g1, g2 hc]

/-! ## C22 -/

/-- C22 (partial): full statement: a restart puts every port back on its default node.  That holds
exactly when no port occupies the default (non-ground) node of a port with a lower number, given
that the map is not locked and the link's own rule allows the defaults. -/
theorem c22_restart_partial {l : Link} (hl : Legal l) (hu : l.locked = false)
    (hr : ∀ p, p < l.numPorts → l.rules p (l.defaults p) = true) :
    ∃ l', Ports.restart updateNodePointerBasic l = some l' ∧
      (SameMap l.numPorts l'.nodeMap l.defaults ↔
        ∀ a b, a < b → b < l.numPorts → l.defaults a < l.groundIdx → l.nodeMap b ≠ l.defaults a) := by
  obtain ⟨l', h1, h2, h3, h4, h5, h6, h7, h8, h9, h10, h11, _⟩ := restart_basic hl
  refine ⟨l', h1, ?_, fun h => h9 hu hr h⟩
  intro hs a b hab hb hag he
  have e1 := h11 a b hab hb hag he
  have e2 := hs a (by omega)
  rw [e1] at e2
  have := hl.map.apart a b (by omega) hb (by omega) (by rw [e2, he])
  omega

/-- C22: a restart of a link with a locked map moves nothing. -/
theorem c22_restart_locked {l : Link} (hl : Legal l) (hu : l.locked = true) :
    ∃ l', Ports.restart updateNodePointerBasic l = some l' ∧ l'.nodeMap = l.nodeMap := by
  obtain ⟨l', h1, h2, h3, h4, h5, h6, h7, h8, _⟩ := restart_basic hl
  exact ⟨l', h1, h8 hu⟩

/-- C22: each port ends at its default node or where it was. -/
theorem c22_restart_each {l : Link} (hl : Legal l) :
    ∃ l', Ports.restart updateNodePointerBasic l = some l' ∧
      ∀ p, p < l.numPorts → l'.nodeMap p = l.defaults p ∨ l'.nodeMap p = l.nodeMap p := by
  obtain ⟨l', h1, _, _, _, _, _, _, _, _, h10, _⟩ := restart_basic hl
  exact ⟨l', h1, h10⟩

/-! ## C20 -/

/-- C20 is false: on a fluid link every request with an invalid port number is an access outside
the arrays, and so is the user's GROUND command on a panel in its initial (or cleared) state. -/
theorem c20_fluid_undefined (l : Link) :
    (∀ p node : Int, ¬ (0 ≤ p ∧ p < l.numPorts) → setPort updateNodePointerFluid l p node = none) ∧
    (l.userPort = -1 → l.control = .ground → processUser updateNodePointerFluid l = none) := by
  refine ⟨fun p node h => setPort_fluid_invalid l p node h, fun hu hc => ?_⟩
  unfold processUser
  have := setPort_fluid_invalid { l with
    userNode := l.groundIdx
    control := .execute } (-1) l.groundIdx (by omega)
  rw [← hu] at this
  simp only [hc, reduceCtorEq, if_false, Option.pure_def, Option.bind_eq_bind, Option.bind_some,
    if_true]
  rw [this]; rfl

theorem process_fluid {l : Link} (h : (l.control = .execute ∨ l.control = .ground) →
    0 ≤ l.userPort ∧ l.userPort < l.numPorts) :
    processUser updateNodePointerFluid l = processUser updateNodePointerBasic l := by
  have key : ∀ l0 : Link, 0 ≤ l0.userPort ∧ l0.userPort < l0.numPorts →
      setPort updateNodePointerFluid l0 l0.userPort l0.userNode =
      setPort updateNodePointerBasic l0 l0.userPort l0.userNode :=
    fun l0 h0 => setPort_fluid_valid l0 _ _ h0
  unfold processUser
  cases hc : l.control
  · simp [hc]
  · simp [hc]
  · simp only [reduceCtorEq, if_false, Option.pure_def, Option.bind_eq_bind, Option.bind_some, hc,
      if_true]
    rw [key l (h (Or.inl hc))]
  · simp only [reduceCtorEq, if_false, Option.pure_def, Option.bind_eq_bind, Option.bind_some,
      if_true]
    have := key { l with
      userNode := l.groundIdx
      control := .execute } (h (Or.inr hc))
    dsimp only at this
    rw [this]
  · by_cases hv : 0 ≤ l.userPort ∧ l.userPort < l.numPorts
    · simp only [if_true, (validPort_iff l l.userPort).mpr hv, rd_valid hv, Option.pure_def,
        Option.bind_eq_bind, Option.bind_some]
      have := key { l with
        userNode := l.defaults l.userPort.toNat
        control := .execute } hv
      dsimp only at this
      rw [this]
    · have : validPort l l.userPort = false := by
        rw [Bool.eq_false_iff]; exact fun h => hv ((validPort_iff l _).mp h)
      simp [this]

theorem register_fluid (map : Nat → Int) (l : Link) :
    registerNodes updateNodePointerFluid map l = registerNodes updateNodePointerBasic map l := by
  unfold registerNodes
  have : ∀ i, i ≤ l.numPorts →
      loop (fun i acc => do
        let l ← acc
        let r ← setPort updateNodePointerFluid
          { l with defaults := fun k => if k = i then map i else l.defaults k } i (map i)
        return r.1) i (some l) =
      loop (fun i acc => do
        let l ← acc
        let r ← setPort updateNodePointerBasic
          { l with defaults := fun k => if k = i then map i else l.defaults k } i (map i)
        return r.1) i (some l) ∧
      ∃ t, loop (fun i acc => do
        let l ← acc
        let r ← setPort updateNodePointerBasic
          { l with defaults := fun k => if k = i then map i else l.defaults k } i (map i)
        return r.1) i (some l) = some t ∧ t.numPorts = l.numPorts := by
    intro i
    induction i with
    | zero => intro _; exact ⟨rfl, l, rfl, rfl⟩
    | succ i ih =>
      intro hi
      obtain ⟨h1, t, h2, h3⟩ := ih (by omega)
      rw [loop_succ, loop_succ, h1, h2]
      have e := setPort_fluid_valid { t with
        defaults := fun k => if k = i then map i else t.defaults k } i (map i)
        ⟨by omega, by show (i : Int) < t.numPorts; omega⟩
      rw [Option.bind_eq_bind, Option.bind_some, Option.bind_eq_bind, Option.bind_some, e,
        setPort_basic]
      exact ⟨rfl, _, rfl, h3⟩
  exact (this l.numPorts le_rfl).1

/-- C20 (partial): full statement: every history is defined and keeps a fluid link legal.  True, and
with the same outcome as for a basic link, when the port numbers requested exist. -/
theorem c20_fluid_partial (ops : List Op) {l : Link} (hl : Legal l)
    (hc : l.control = .ready) (ho : ∀ o ∈ ops, o.inRange l.numPorts) :
    ∃ l', runOps updateNodePointerFluid ops l = some l' ∧ Legal l' ∧
      runOps updateNodePointerBasic ops l = some l' := by
  have gen : ∀ (ops : List Op) (l : Link), Legal l →
      ((l.control = .execute ∨ l.control = .ground) → 0 ≤ l.userPort ∧ l.userPort < l.numPorts) →
      (∀ o ∈ ops, o.inRange l.numPorts) →
      runOps updateNodePointerFluid ops l = runOps updateNodePointerBasic ops l := by
    intro ops
    induction ops with
    | nil => intros; rfl
    | cons o os ih =>
      intro l hl hq ho
      obtain ⟨l1, h1, h2, h3, _⟩ := op_basic hl o
      have hin := ho o List.mem_cons_self
      have same : o.run updateNodePointerFluid l = o.run updateNodePointerBasic l := by
        cases o with
        | set p node => exact congrArg (Option.map Prod.fst) (setPort_fluid_valid l p node hin)
        | panel p node c => rfl
        | process => exact process_fluid hq
        | poll => rfl
        | lock b => rfl
        | rules r => rfl
        | restart => exact register_fluid _ _
      have hq1 : (l1.control = .execute ∨ l1.control = .ground) →
          0 ≤ l1.userPort ∧ l1.userPort < l1.numPorts := by
        rw [h3]
        cases o with
        | set p node =>
          have : (setPort updateNodePointerBasic l p node).map Prod.fst = some l1 := h1
          rw [setPort_basic] at this
          rw [← Option.some.inj this]
          exact hq
        | panel p node c =>
          rw [← Option.some.inj h1]
          intro hcc
          rcases hin with h | h
          · exact h
          · rcases hcc with h' | h'
            · exact (h.1 h').elim
            · exact (h.2 h').elim
        | process =>
          obtain ⟨l2, k1, k2, k3⟩ := c21_panel hl
          have : processUser updateNodePointerBasic l = some l1 := h1
          rw [k1] at this
          rw [← Option.some.inj this]
          by_cases hcc : l.control = .ready ∨ l.control = .failed
          · rw [k2 hcc]; exact hq
          · intro h
            rcases (k3 hcc).2.2 with h' | h' <;> rw [h'.1] at h <;> simp at h
        | poll => rw [← Option.some.inj h1]; exact hq
        | lock b => rw [← Option.some.inj h1]; exact hq
        | rules r => rw [← Option.some.inj h1]; exact hq
        | restart =>
          obtain ⟨l2, k1, k2⟩ := restart_basic hl
          have : Ports.restart updateNodePointerBasic l = some l1 := h1
          rw [k1] at this
          rw [← Option.some.inj this, k2.2.2.2.2.2.2.2.2.2.2]
          simp
      show (o.run updateNodePointerFluid l).bind _ = (o.run updateNodePointerBasic l).bind _
      rw [same, h1]
      exact ih l1 h2 hq1 (fun x hx => h3 ▸ ho x (List.mem_cons_of_mem _ hx))
  obtain ⟨l', h1, h2, _⟩ := c19_history ops hl
  exact ⟨l', (gen ops l hl (by rw [hc]; simp) ho).trans h1, h2, h1⟩

/-! ## Concrete cases -/

/-- A two-port link of a network with nodes 0, 1, 2 and ground 3, on nodes 0 and 1. -/
def samplePorts : Link where
  numPorts := 2
  groundIdx := 3
  rules := fun _ _ => true
  locked := false
  defaults := fun p => if p = 0 then 0 else 1
  nodeMap := fun p => if p = 0 then 0 else 1
  nodes := fun p => if p = 0 then some 0 else some 1
  admMap := fun k => if k = 0 then 0 else if k = 1 then 1 else if k = 2 then 3 else 4
  admUpdate := false
  userPort := -1
  userNode := -1
  control := .ready

theorem legalMap_two {g : Int} {m : Nat → Int} (h0 : 0 ≤ m 0 ∧ m 0 ≤ g) (h1 : 0 ≤ m 1 ∧ m 1 ≤ g)
    (h : m 0 = m 1 → m 0 = g) : LegalMap 2 g m := by
  refine ⟨fun p hp => ?_, fun p q hp hq hpq he => ?_⟩
  · interval_cases p
    · exact h0
    · exact h1
  · interval_cases p <;> interval_cases q
    · omega
    · exact h he
    · rw [he]; exact h he.symm
    · omega

theorem samplePorts_legal : Legal samplePorts := by
  refine ⟨legalMap_two (by decide) (by decide) (by decide), ?_, ?_,
    legalMap_two (by decide) (by decide) (by decide)⟩
  · intro p hp
    have hp : p < 2 := hp
    interval_cases p <;> rfl
  · intro p q hp hq
    have hp : p < 2 := hp
    have hq : q < 2 := hq
    unfold Addresses
    interval_cases p <;> interval_cases q <;> decide

/-- The maps observed after a history. -/
def mapAfter (ptr : Link → Int → Option Link) (ops : List Op) (l : Link) : Option (Int × Int × Bool) :=
  (runOps ptr ops l).map fun l => (l.nodeMap 0, l.nodeMap 1, l.admUpdate)

/-- The history that exchanges the two ports of `samplePorts` by way of the ground node, then
restarts. -/
def exchange : List Op := [.set 0 3, .set 1 0, .set 0 1]

/-- A legal move is granted and raises the flag, an illegal one (same node, bad port, bad node,
locked) is refused. -/
example : mapAfter updateNodePointerBasic [.set 0 2] samplePorts = some (2, 1, true) ∧
    mapAfter updateNodePointerBasic [.set 0 1, .set 7 0, .set (-1) 0, .set 0 4, .set 0 (-5),
      .lock true, .set 0 2] samplePorts = some (0, 1, false) := by decide +kernel

/-- The user sends port 1 to ground, then back to its default. -/
example : mapAfter updateNodePointerBasic [.panel 1 0 .ground, .process] samplePorts =
      some (0, 3, true) ∧
    mapAfter updateNodePointerBasic [.panel 1 0 .ground, .process, .poll, .panel 1 0 .default,
      .process, .process] samplePorts = some (0, 1, true) := by decide +kernel

/-- An initialisation that succeeds and one that does not. -/
example : (∃ l, initLink updateNodePointerBasic 2 3 (fun _ _ => true) false
      (fun p => if p = 0 then 2 else 3) = .ok l) ∧
    initLink updateNodePointerBasic 2 3 (fun _ _ => true) false (fun _ => 2) = .exception := by
  constructor
  · rcases c19_init 2 3 (fun _ _ => true) false (fun p => if p = 0 then 2 else 3) (by decide) with h | h
    · obtain ⟨_, _, l, h, _⟩ := h
      exact ⟨l, h⟩
    · exact (h.1 ⟨legalMap_two (by decide) (by decide) (by decide), fun _ _ => rfl⟩).elim
  · rcases c19_init 2 3 (fun _ _ => true) false (fun _ => 2) (by decide) with h | h
    · have := h.1.apart 0 1 (by decide) (by decide) (by decide) rfl
      exact absurd this (by decide)
    · exact h.2

/-- The hypotheses of `c19_flag` are met by a history that changes the map and by one that does
not. -/
example : (∀ o ∈ exchange, o.keepsFlag = true) ∧
    mapAfter updateNodePointerBasic exchange samplePorts = some (1, 0, true) := by
  constructor
  · intro o ho
    simp only [exchange, List.mem_cons, List.not_mem_nil, or_false] at ho
    rcases ho with rfl | rfl | rfl <;> rfl
  · decide +kernel

/-- C22 is false in general: after the ports have been exchanged, a restart leaves them exchanged. -/
theorem c22_restart_fails :
    ∃ ops l l', Legal l ∧ l.locked = false ∧ SameMap l.numPorts l.nodeMap l.defaults ∧
      (∀ p n, l.rules p n = true) ∧
      runOps updateNodePointerBasic (ops ++ [.restart]) l = some l' ∧
      ¬ SameMap l.numPorts l'.nodeMap l.defaults := by
  obtain ⟨l', h, _⟩ := c19_history (exchange ++ [.restart]) samplePorts_legal
  refine ⟨exchange, samplePorts, l', samplePorts_legal, rfl, fun _ _ => rfl, fun _ _ => rfl, h, ?_⟩
  have hm : mapAfter updateNodePointerBasic (exchange ++ [.restart]) samplePorts = some (1, 0, false) := by
    decide +kernel
  unfold mapAfter at hm
  rw [h, Option.map_some, Option.some.injEq, Prod.mk.injEq] at hm
  intro hs
  have := hs 0 (by decide)
  rw [hm.1] at this
  exact absurd this (by decide)

/-- A restart that does restore a moved port. -/
example : mapAfter updateNodePointerBasic [.set 0 2, .restart] samplePorts = some (0, 1, true) := by
  decide +kernel

/-- C20: the witness.  The initial panel plus GROUND, or another object's request for port 2 of a
two-port link, is undefined behaviour on a fluid link and harmless on a basic one. -/
example : mapAfter updateNodePointerFluid [.panel (-1) (-1) .ground, .process] samplePorts = none ∧
    mapAfter updateNodePointerFluid [.set 2 0] samplePorts = none ∧
    mapAfter updateNodePointerBasic [.panel (-1) (-1) .ground, .process] samplePorts =
      some (0, 1, false) ∧
    mapAfter updateNodePointerFluid [.panel 1 2 .execute, .process] samplePorts =
      some (0, 2, true) := by decide +kernel

end Gunns.Props
