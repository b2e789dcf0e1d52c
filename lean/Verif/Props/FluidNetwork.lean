import Verif.Fluid.NetworkSums
import Verif.Props.Orchestrator

/-!
# Conservation in fluid networks (C35)
-/

set_option linter.unusedSectionVars false

namespace Gunns.Props
open Gunns.Fluid Gunns.Flow Finset

variable {K : Type _} [Field K] [LinearOrder K] [IsStrictOrderedRing K]

/-- The calls the orchestrator makes. -/
def orders (dt : K) (fn : FluidNet K) (s0 : Nat → FNode K) : List Event :=
  match Flow.update (fn.view dt (computeAll fn s0)) (2 * fn.links + 1) with
  | .done t => t.log
  | _ => []

/-- No transport is forced; and at each node the amounts are large enough or zero, so that none of the guards against
small numbers acts, and no more is asked of a node than it holds or gets (`Fine`). -/
structure Gentle (th : Thermo K) (dt : K) (fn : FluidNet K) (s s0 : Nat → FNode K) : Prop where
  free : ∀ l, Event.transport l true ∉ orders dt fn s0
  fine : ∀ n, n < fn.nodes → Fine dt (called th dt fn n (before n (orders dt fn s0)) s0) (s n)
  tiny : ∀ n, n < fn.nodes → ∀ a ∈ inflows (called th dt fn n (before n (orders dt fn s0)) s0), NoTinyParts a.1 a.2

theorem resetAll_spec {fn : FluidNet K} {s : Nat → FNode K} (h : NodesReady fn s) : ∀ k n, n + k = fn.nodes + 1 →
    ∀ ms : Nat → FNode K, (∀ m, n ≤ m → ms m = s m) → ∃ s0, resetAll ms n k = .ok s0 ∧
      (∀ m, m < n → s0 m = ms m) ∧ ∀ m, n ≤ m → m ≤ fn.nodes → resetFlows (s m) = .ok (s0 m) := by
  intro k
  induction k with
  | zero => intro n hn ms hms; exact ⟨ms, rfl, fun _ _ => rfl, fun m h1 h2 => by omega⟩
  | succ k ih =>
    intro n hn ms hms
    have hfl : SameFluids (s n).content (s n).outflow := by
      by_cases hg : n < fn.nodes
      · exact (h.ready n hg).outflow
      · have : n = fn.nodes := by omega
        rw [this]; exact h.ground
    obtain ⟨o, h1, -⟩ := setState_spec hfl
    obtain ⟨q, hq⟩ : ∃ q, resetFlows (s n) = .ok q := by
      unfold resetFlows
      rw [h1]
      exact ⟨_, rfl⟩
    obtain ⟨s0, g1, g2, g3⟩ := ih (n + 1) (by omega) (upd ms n (fun _ => q)) (by
      intro m hm
      rw [upd_other _ _ (by omega)]
      exact hms m (by omega))
    refine ⟨s0, ?_, ?_, ?_⟩
    · show (match resetFlows (ms n) with
        | .thrown s => Res.thrown (upd ms n (fun _ => s))
        | .ok s => resetAll (upd ms n (fun _ => s)) (n + 1) k) = _
      rw [hms n (Nat.le_refl _), hq]
      exact g1
    · intro m hm
      rw [g2 m (by omega), upd_other _ _ (by omega)]
    · intro m h1 h2
      by_cases hmn : m = n
      · subst hmn
        rw [g2 m (by omega), upd_same]
        exact hq
      · exact g3 m (by omega) h2

/-- The nodes' flows can be reset. -/
theorem c35_reset {fn : FluidNet K} {s : Nat → FNode K} (h : NodesReady fn s) :
    ∃ s0, resetAll s 0 (fn.nodes + 1) = .ok s0 := by
  obtain ⟨s0, h1, -⟩ := resetAll_spec h (fn.nodes + 1) 0 (by omega) s (fun _ _ => rfl)
  exact ⟨s0, h1⟩

theorem setting_of {th : Thermo K} {dt : K} {fn : FluidNet K} {s s0 : Nat → FNode K} (hn : NodesReady fn s)
    (hc : Clear fn s) (h0 : resetAll s 0 (fn.nodes + 1) = .ok s0) (hg : Gentle th dt fn s s0) :
    (∃ t, Flow.update (fn.view dt (computeAll fn s0)) (2 * fn.links + 1) = .done t ∧ t.log = orders dt fn s0) ∧
    Setting th dt fn s s0 (orders dt fn s0) := by
  obtain ⟨s0', h1, -, h3⟩ := resetAll_spec hn (fn.nodes + 1) 0 (by omega) s (fun _ _ => rfl)
  rw [h0] at h1
  injection h1 with h1
  subst h1
  obtain ⟨t, ht, -, c1, c2, c3, c4⟩ := c27_update_completes (fn.view dt (computeAll fn s0)) (2 * fn.links + 1)
    (Nat.lt_succ_self _)
  have hlog : t.log = orders dt fn s0 := by unfold orders; rw [ht]
  refine ⟨⟨t, ht, hlog⟩, hn, hc, fun n hn' => h3 n (Nat.zero_le _) hn', ?_, hg.fine, hg.tiny⟩
  rw [hlog] at c1 c2 c4
  refine ⟨?_, ?_, ?_, c4, hg.free⟩
  · intro l
    by_cases hl : l < (fn.view dt (computeAll fn s0)).links
    · rw [if_pos hl]; exact (c1 l hl).1
    · rw [if_neg hl, List.count_eq_zero]
      intro hm
      obtain ⟨a, b, hab⟩ := List.append_of_mem hm
      exact hl (c4 a _ b hab).1
  · intro l
    by_cases hl : l < (fn.view dt (computeAll fn s0)).links
    · rw [if_pos hl]; exact (c1 l hl).2
    · rw [if_neg hl, List.countP_eq_zero]
      intro e he ht'
      obtain ⟨a, b, hab⟩ := List.append_of_mem he
      have : e = .transport l false ∨ e = .transport l true := by simpa [Event.isTransport] using ht'
      rcases this with rfl | rfl
      · exact hl (c4 a _ b hab).1
      · exact hl (c4 a _ b hab).1
  · intro n
    by_cases hl : n < (fn.view dt (computeAll fn s0)).nodes
    · rw [if_pos hl]; exact c2 n hl
    · rw [if_neg hl, List.count_eq_zero]
      intro hm
      obtain ⟨a, b, hab⟩ := List.append_of_mem hm
      exact hl (c4 a _ b hab).1

/-- Mass of constituent `i` that comes in from ground, less what goes to ground, in a step from `s` to `r`. -/
def fromGround (dt : K) (fn : FluidNet K) (s r : Nat → FNode K) (i : Nat) : K :=
  dt * ∑ l ∈ range fn.links,
    ((if (fn.link l).src = fn.nodes ∧ (fn.link l).flux ≠ 0 then |(fn.link l).flux| * carried fn s r l i else 0) -
     (if (fn.link l).dst = fn.nodes ∧ (fn.link l).flux ≠ 0 then |(fn.link l).flux| * carried fn s r l i else 0))

/-- **C35.** A step of a network of fluid conductors: it ends without exception and leaves proper mixtures of the same
fluids in nodes of the same volumes; each node gains of each constituent what its links carry in less what they carry
out, a link taking from one node exactly what it brings to the other; and so the mass of each constituent in the network
only changes by what comes from ground and goes to ground. -/
theorem c35_step {th : Thermo K} {dt : K} {fn : FluidNet K} {s s0 : Nat → FNode K} (hn : NodesReady fn s)
    (hc : Clear fn s) (h0 : resetAll s 0 (fn.nodes + 1) = .ok s0) (hg : Gentle th dt fn s s0) :
    ∃ r, fluidStep th dt fn s = some (.ok r) ∧ NodesReady fn r ∧
      (∀ n, n < fn.nodes → SameFluids (s n).content (r n).content ∧ (r n).volume = (s n).volume) ∧
      ∀ i, (∀ n, n < fn.nodes → i < (s n).content.n) →
        (∀ n, n < fn.nodes → held (r n) i = held (s n) i + dt * ∑ l ∈ range fn.links,
          ((if (fn.link l).flux ≠ 0 ∧ n = (fn.link l).dst then |(fn.link l).flux| * carried fn s r l i else 0) -
           (if (fn.link l).flux ≠ 0 ∧ n = (fn.link l).src then |(fn.link l).flux| * carried fn s r l i else 0))) ∧
        ∑ n ∈ range fn.nodes, held (r n) i = ∑ n ∈ range fn.nodes, held (s n) i + fromGround dt fn s r i := by
  obtain ⟨⟨t, ht, hlog⟩, hs⟩ := setting_of hn hc h0 hg
  obtain ⟨r, hr⟩ := At.all hs (orders dt fn s0) [] (List.append_nil _).symm
  have hdone : ∀ n, n < fn.nodes → ∃ x q, Stepped dt (called th dt fn n (before n (orders dt fn s0)) s0) (s n) (s0 n) x ∧
      r n = { x with outflux := q } := by
    intro n hn'
    have hin : Event.integrate n ∈ orders dt fn s0 := by
      obtain ⟨b, hb⟩ := hs.split hn'
      rw [hb]; simp
    obtain ⟨x, q, -, h2, h3⟩ := hr.done n hn' hin
    exact ⟨x, q, h2, h3⟩
  have hsame : ∀ n, n < fn.nodes → SameFluids (s n).content (r n).content ∧ (r n).volume = (s n).volume := by
    intro n hn'
    obtain ⟨x, q, h2, h3⟩ := hdone n hn'
    rw [h3]
    exact ⟨h2.fluids, h2.volume⟩
  refine ⟨r, ?_, ⟨?_, ?_, ?_⟩, hsame, fun i hi => ⟨fun n hn' => node_balance hs hr hi hn', network_balance hs hr hi⟩⟩
  · unfold fluidStep
    rw [h0]
    dsimp only
    rw [ht]
    dsimp only
    rw [hlog, hr.run]
  · intro n hn'
    obtain ⟨x, q, h2, h3⟩ := hdone n hn'
    rw [h3]
    obtain ⟨y1, y2, y3, y4, y5, y6, y7, y8⟩ := h2.ready
    exact ⟨y1, y2, y3, y4, y5, y6, y7, y8⟩
  · intro n m hn' hm
    exact ((hsame n hn').1.symm.trans (hn.same n m hn' hm)).trans (hsame m hm).1
  · have hni : Event.integrate fn.nodes ∉ orders dt fn s0 := by
      intro c
      have hz := hs.good.int fn.nodes
      rw [if_neg (by show ¬ fn.nodes < fn.nodes; omega)] at hz
      have : 0 < (orders dt fn s0).count (Event.integrate fn.nodes) := List.count_pos_iff.2 c
      omega
    rw [hr.pend _ (Nat.le_refl _) hni, (collect_frame th _ _).1, (collect_frame th _ _).2.1,
      (hs.s0_scheduled (Nat.le_refl _)).2]
    obtain ⟨o, h1, h2, -, -⟩ := setState_spec hn.ground
    have := hs.reset fn.nodes (Nat.le_refl _)
    unfold resetFlows at this
    rw [h1] at this
    injection this with this
    rw [← this]
    exact h2.fluids

/-- Steps one after the other, each with its length and links. -/
def fluidSteps (th : Thermo K) : List (K × FluidNet K) → (Nat → FNode K) → Option (Nat → FNode K)
  | [], s => some s
  | x :: xs, s =>
    match fluidStep th x.1 x.2 s with
    | some (.ok r) => fluidSteps th xs r
    | _ => none

/-- What came from ground in these steps, less what went there. -/
def fromGroundIn (th : Thermo K) (i : Nat) : List (K × FluidNet K) → (Nat → FNode K) → K
  | [], _ => 0
  | x :: xs, s =>
    match fluidStep th x.1 x.2 s with
    | some (.ok r) => fromGround x.1 x.2 s r i + fromGroundIn th i xs r
    | _ => 0

/-- Each step meets the hypotheses of `c35_step` on links and flows. -/
def Gentles (th : Thermo K) : List (K × FluidNet K) → (Nat → FNode K) → Prop
  | [], _ => True
  | x :: xs, s => Clear x.2 s ∧ (∀ s0, resetAll s 0 (x.2.nodes + 1) = .ok s0 → Gentle th x.1 x.2 s s0) ∧
      ∀ r, fluidStep th x.1 x.2 s = some (.ok r) → Gentles th xs r

/-- **C35.** Over any number of steps, of any lengths and with links of any settings: the mass of each constituent in
the network changes by what came from ground less what went there. -/
theorem c35_history {th : Thermo K} (nodes : Nat) (xs : List (K × FluidNet K)) (hx : ∀ x ∈ xs, x.2.nodes = nodes)
    (s : Nat → FNode K) (hn : ∀ fn : FluidNet K, fn.nodes = nodes → NodesReady fn s) (hg : Gentles th xs s) (i : Nat)
    (hi : ∀ n, n < nodes → i < (s n).content.n) :
    ∃ r, fluidSteps th xs s = some r ∧ (∀ fn : FluidNet K, fn.nodes = nodes → NodesReady fn r) ∧
      (∀ n, n < nodes → SameFluids (s n).content (r n).content ∧ (r n).volume = (s n).volume) ∧
      ∑ n ∈ range nodes, held (r n) i = ∑ n ∈ range nodes, held (s n) i + fromGroundIn th i xs s := by
  induction xs generalizing s with
  | nil => exact ⟨s, rfl, hn, fun n _ => ⟨SameFluids.refl _, rfl⟩, (add_zero _).symm⟩
  | cons x xs ih =>
    obtain ⟨hc, h0, hr⟩ := hg
    have hnx := hx x (by simp)
    obtain ⟨s0, hs0⟩ := c35_reset (hn x.2 hnx)
    obtain ⟨r, g1, g2, g3, g4⟩ := c35_step (hn x.2 hnx) hc hs0 (h0 s0 hs0)
    have hn' : ∀ fn : FluidNet K, fn.nodes = nodes → NodesReady fn r := by
      intro fn hfn
      obtain ⟨y1, y2, y3⟩ := g2
      rw [hnx] at y1 y2 y3
      exact ⟨by rw [hfn]; exact y1, by rw [hfn]; exact y2, by rw [hfn]; exact y3⟩
    rw [hnx] at g3
    obtain ⟨q, k1, k2, k3, k4⟩ := ih (fun y hy => hx y (by simp [hy])) r hn' (hr r g1)
      (fun n hn1 => by rw [← (g3 n hn1).1.1]; exact hi n hn1)
    refine ⟨q, ?_, k2, ?_, ?_⟩
    · show (match fluidStep th x.1 x.2 s with
        | some (.ok r) => fluidSteps th xs r
        | _ => none) = _
      rw [g1]; exact k1
    · intro n hn1
      exact ⟨(g3 n hn1).1.trans (k3 n hn1).1, (k3 n hn1).2.trans (g3 n hn1).2⟩
    · have := (g4 i (by rw [hnx]; exact hi)).2
      rw [hnx] at this
      rw [k4, this, add_assoc]
      congr 1
      show _ = (match fluidStep th x.1 x.2 s with
        | some (.ok r) => fromGround x.1 x.2 s r i + fromGroundIn th i xs r
        | _ => 0)
      rw [g1]

/-- **C35.** In a network that no flow enters or leaves the mass of each constituent stays as it is. -/
theorem c35_closed {th : Thermo K} (nodes : Nat) (xs : List (K × FluidNet K)) (hx : ∀ x ∈ xs, x.2.nodes = nodes)
    (hcl : ∀ x ∈ xs, ∀ l, l < x.2.links → (x.2.link l).flux ≠ 0 → (x.2.link l).node0 ≠ nodes ∧ (x.2.link l).node1 ≠ nodes)
    (s : Nat → FNode K) (hn : ∀ fn : FluidNet K, fn.nodes = nodes → NodesReady fn s) (hg : Gentles th xs s) (i : Nat)
    (hi : ∀ n, n < nodes → i < (s n).content.n) :
    ∃ r, fluidSteps th xs s = some r ∧
      ∑ n ∈ range nodes, held (r n) i = ∑ n ∈ range nodes, held (s n) i := by
  obtain ⟨r, h1, -, -, h4⟩ := c35_history nodes xs hx s hn hg i hi
  refine ⟨r, h1, ?_⟩
  rw [h4]
  suffices h : ∀ s, fromGroundIn th i xs s = 0 by rw [h, add_zero]
  clear h4 h1 hg hn hi
  induction xs with
  | nil => intro s; rfl
  | cons x xs ih =>
    intro s
    have h0 : ∀ r, fromGround x.1 x.2 s r i = 0 := by
      intro r
      unfold fromGround
      rw [Finset.sum_eq_zero, mul_zero]
      intro l hl
      have hl := mem_range.1 hl
      by_cases hf : (x.2.link l).flux = 0
      · rw [if_neg (fun c => c.2 hf), if_neg (fun c => c.2 hf), sub_zero]
      · obtain ⟨h0, h1⟩ := hcl x (by simp) l hl hf
        have hnx := hx x (by simp)
        have e1 : ¬ ((x.2.link l).src = x.2.nodes ∧ (x.2.link l).flux ≠ 0) := by
          rintro ⟨c, -⟩
          unfold FLink.src at c
          rw [hnx] at c
          split_ifs at c
          · exact h0 c
          · exact h1 c
        have e2 : ¬ ((x.2.link l).dst = x.2.nodes ∧ (x.2.link l).flux ≠ 0) := by
          rintro ⟨c, -⟩
          unfold FLink.dst at c
          rw [hnx] at c
          split_ifs at c
          · exact h1 c
          · exact h0 c
        rw [if_neg e1, if_neg e2, sub_zero]
    show (match fluidStep th x.1 x.2 s with
      | some (.ok r) => fromGround x.1 x.2 s r i + fromGroundIn th i xs r
      | _ => 0) = 0
    cases hst : fluidStep th x.1 x.2 s with
    | none => rfl
    | some y =>
      cases y with
      | thrown q => rfl
      | ok q =>
        dsimp only
        rw [h0 q, ih (fun y hy => hx y (by simp [hy])) (fun y hy => hcl y (by simp [hy])), add_zero]

/-! ## Examples -/

/-- Two tanks of 8 kg with different mixtures; a conductor between them and one to ground. -/
def twoTanks : Nat → FNode ℚ := fun n => if n = 0 then tank (1/2) 8 else if n = 1 then tank 0 8 else tank 1 0

/-- Links of `twoTanks`: from node 0 to node 1, written the wrong way round, and from node 1 to ground. -/
def twoTanksNet : FluidNet ℚ where
  links := 2
  nodes := 2
  link := fun l => if l = 0 then ⟨1, 0, 100, 101, 1/4⟩ else ⟨1, 2, 100, 0, 1/200⟩

/-- Masses held, per node and constituent. -/
def heldIn (r : Option (Res (Nat → FNode ℚ))) : Option (List ℚ) :=
  match r with
  | some (.ok r) => some [held (r 0) 0, held (r 0) 1, held (r 1) 0, held (r 1) 1]
  | _ => none

/-- Node 0 loses a quarter mole per second, of which node 1 gets all; node 1 loses half a mole per second to ground. -/
example : heldIn (fluidStep plainThermo (1/2) twoTanksNet twoTanks) =
    some [4 - 1 / 6, 4 - 1 / 6, 1 / 6, 8 + 1 / 6 - 1] := by decide +kernel

theorem twoTanks_ready : NodesReady twoTanksNet twoTanks := by
  refine ⟨?_, ?_, ⟨rfl, fun i _ => ⟨rfl, rfl⟩⟩⟩
  · intro n hn
    have : n = 0 ∨ n = 1 := by change n < 2 at hn; omega
    rcases this with rfl | rfl
    · exact ready_tank (by norm_num) (by norm_num)
    · exact ready_tank (by norm_num) (by norm_num)
  · intro n m hn hm
    have h1 : n = 0 ∨ n = 1 := by change n < 2 at hn; omega
    have h2 : m = 0 ∨ m = 1 := by change m < 2 at hm; omega
    rcases h1 with rfl | rfl <;> rcases h2 with rfl | rfl <;> exact ⟨rfl, fun i _ => ⟨rfl, rfl⟩⟩

theorem twoTanks_clear : Clear twoTanksNet twoTanks := by
  refine ⟨by decide +kernel, ?_⟩
  intro l hl
  right
  exact (by decide +kernel : ∀ l, l < 2 → (twoTanksNet.link l).node0 ≠ (twoTanksNet.link l).node1 ∧
    dblEps < |(twoTanksNet.link l).flux| ∧ ∀ n, n < 2 → ∀ i, i < (twoTanks n).content.n →
      2 * limit100 < |(twoTanksNet.link l).flux| * (twoTanks n).content.mw i) l hl

/-- The tanks after `resetFlows`. -/
def twoTanksReset : Nat → FNode ℚ := match resetAll twoTanks 0 3 with | .ok q => q | .thrown q => q

/-- Non-vacuity: the hypotheses of `c35_step` hold for the tanks. -/
theorem twoTanks_gentle : resetAll twoTanks 0 (twoTanksNet.nodes + 1) = .ok twoTanksReset ∧
    Gentle plainThermo (1/2) twoTanksNet twoTanks twoTanksReset := by
  obtain ⟨q, hq⟩ := c35_reset twoTanks_ready
  constructor
  · rw [hq]
    unfold twoTanksReset
    rw [show resetAll twoTanks 0 3 = .ok q from hq]
  · refine ⟨?_, ?_, by unfold NoTinyParts; decide +kernel⟩
    · intro l hl
      have h : (orders (1/2) twoTanksNet twoTanksReset).all (fun e => match e with | .transport _ true => false | _ => true) =
          true := by decide +kernel
      exact absurd (List.all_eq_true.1 h _ hl) (by simp)
    · intro n hn
      have : n = 0 ∨ n = 1 := by change n < 2 at hn; omega
      rcases this with rfl | rfl
      · exact Or.inl ⟨by decide +kernel, ⟨⟨by decide +kernel, by decide +kernel, by decide +kernel, by decide +kernel,
          by decide +kernel, by decide +kernel⟩, by decide +kernel, by decide +kernel⟩⟩
      · exact Or.inl ⟨by decide +kernel, ⟨⟨by decide +kernel, by decide +kernel, by decide +kernel, by decide +kernel,
          by decide +kernel, by decide +kernel⟩, by decide +kernel, by decide +kernel⟩⟩

/-- A single conductor from node 0 to node 1, with unit pressure difference. -/
def oneLink (flux : ℚ) : FluidNet ℚ where
  links := 1
  nodes := 2
  link := fun _ => ⟨0, 1, 1, 0, flux⟩

/-- **C35** (limit). A flux above `DBL_EPSILON` whose mass flow is at most `100 DBL_EPSILON` is taken from one node but
not brought to the other: mass is lost. -/
theorem c35_undelivered :
    (heldIn (fluidStep plainThermo 1 (oneLink (10 * dblEps)) (fun _ => tank 1 8))).map (fun l => [l.getD 0 0, l.getD 2 0]) =
      some [8 - 20 * dblEps, 8] := by decide +kernel

/-- A node holding a gas of molecular weight 150. -/
def heavyTank (mass : ℚ) : FNode ℚ :=
  let gas := fun m : ℚ => { twoFluids 1 0 m with
    mw := fun _ => 150
    mole := m / 150
    mweight := 150
    parts := fun i => { (twoFluids 1 0 m).parts i with
      moleFraction := if i = 0 then 1 else 0
      mole := if i = 0 then m / 150 else 0 } }
  { tank 1 0 with
    content := gas mass
    inflow := gas 0
    outflow := gas 0 }

/-- **C35** (limit). A flux of at most `DBL_EPSILON` of a gas of molecular weight above 100 is brought to one node but
not taken from the other: mass is created. -/
theorem c35_undrawn :
    (heldIn (fluidStep plainThermo 1 (oneLink dblEps) (fun _ => heavyTank 8))).map (fun l => [l.getD 0 0, l.getD 2 0]) =
      some [8, 8 + 150 * dblEps] := by decide +kernel

/-- A ring of two nodes, each losing one mole per second to the other. -/
def ring : FluidNet ℚ where
  links := 2
  nodes := 2
  link := fun l => if l = 0 then ⟨0, 1, 1, 0, 1⟩ else ⟨1, 0, 1, 0, 1⟩

/-- **C35** (limit). In a ring of overflowing nodes one transport is forced; the link then brings fluid of the node's old
composition while the node loses fluid of its new one, and mass is lost: here a quarter of a kilogram, of 2. -/
theorem c35_forced :
    heldIn (fluidStep plainThermo 1 ring (fun n => if n = 0 then tank 1 1 else if n = 1 then tank 0 1 else tank 1 0)) =
      some [3 / 4, 1 / 2, 1 / 2, 0] := by decide +kernel

end Gunns.Props
