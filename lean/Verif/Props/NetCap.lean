import Verif.Solver.NetCapLemmas
import Mathlib.Tactic.NormNum

/-!
# C47: the network capacitance of a node is the inverse of its driving point response

`Gunns::perturbNetworkCapacitances` and `computeNetworkCapacitances`.
-/

namespace Gunns.Props

open Gunns Gunns.Spec Gunns.NetCap Finset

set_option linter.unusedSectionVars false

variable {K : Type _} [Field K] [LinearOrder K] [IsStrictOrderedRing K]

/-- `g` is the response of all potentials to a unit source at node `i`: column `i` of the inverse of the
matrix. -/
def Response (N : Nat) (M : Nat → Nat → K) (i : Nat) (g : Nat → K) : Prop :=
  ∀ k, k < N → mulVec N M g k = if k = i then 1 else 0

/-- C47: requests do not disturb the solution: the potentials are those of the system with the sources
given, flushed below `DBL_EPSILON`, and the sources are restored. -/
theorem c47_solution {N : Nat} {B : Mat K} (hu : UpperIsLower N B) {timeStep : K}
    {s s' : NetCap.State K} (h : solveNormal N B timeStep s = some s') :
    s'.w = s.w ∧ ∃ x, (∀ j, j < N → mulVec N (ldlt N B) x j = s.w j) ∧
      ∀ j, j < N → s'.pot j = if |x j| < dblEps then 0 else x j := by
  obtain ⟨x, S⟩ := solveNormal_spec hu h
  refine ⟨S.w, x, S.sol, ?_⟩
  intro j hj
  rw [S.pot]
  by_cases hx : |x j| < dblEps
  · rw [if_pos ⟨hj, hx⟩, if_pos hx]
  · rw [if_neg (fun hh => hx hh.2), if_neg hx]

/-- C47: it fails exactly if the system cannot be solved, whatever is requested. -/
theorem c47_outcome {N : Nat} (hN : 1 ≤ N) (B : Mat K) (timeStep : K) (s : NetCap.State K) :
    (∃ s', solveNormal N B timeStep s = some s') ↔ ∀ k, k < N → B k k ≠ 0 := by
  constructor
  · rintro ⟨s', h⟩
    unfold solveNormal at h
    obtain ⟨t, -, h⟩ := Option.bind_eq_some_iff.1 h
    obtain ⟨u, hu', -⟩ := Option.map_eq_some_iff.1 h
    exact diag_of_some hN hu'
  · intro hd
    obtain ⟨t, ht⟩ := perturb_ok hN hd s N
    obtain ⟨u, hu'⟩ := solve_ok hN hd t
    refine ⟨compute N timeStep { u with pot := cleanPot N u.pot }, ?_⟩
    unfold solveNormal perturb
    rw [ht]
    show (solveCholesky N B t).map _ = _
    rw [hu']
    rfl

/-- C47: the array of a requesting node is the response of all nodes to the flux requested, up to the
flush of the potentials: exactly where the potential is not flushed, else by less than `DBL_EPSILON`. -/
theorem c47_delta {N : Nat} {B : Mat K} (hN : 1 ≤ N) (hu : UpperIsLower N B) {timeStep : K}
    {s s' : NetCap.State K} (h : solveNormal N B timeStep s = some s') {i : Nat} (hi : i < N)
    (hr : dblEps < s.req i) {g : Nat → K} (hg : Response N (ldlt N B) i g) (j : Nat) (hj : j < N) :
    |s'.delta i j - s.req i * g j| < dblEps ∧
    (s'.pot j ≠ 0 → s'.delta i j = s.req i * g j) := by
  have hd := (c47_outcome hN B timeStep s).1 ⟨s', h⟩
  obtain ⟨x, S⟩ := solveNormal_spec hu h
  obtain ⟨-, z, z1, -, z3⟩ := S.on i hi hr
  have hz : z j = x j + s.req i * g j := Sol.unique hu hd z1 (Sol.perturb S.sol hg) j hj
  rw [z3 j hj, hz, S.pot j]
  have e := dblEps_pos (K := K)
  by_cases hx : |x j| < dblEps
  · rw [if_pos ⟨hj, hx⟩]
    refine ⟨?_, fun hne => absurd rfl hne⟩
    rw [show x j + s.req i * g j - 0 - s.req i * g j = x j by ring]
    exact hx
  · rw [if_neg (fun hh => hx hh.2)]
    refine ⟨?_, fun _ => by ring⟩
    rw [show x j + s.req i * g j - x j - s.req i * g j = 0 by ring, abs_zero]
    exact e

/-- C47: the capacitance of a requesting node is the time step over its response to a unit source:
whatever the flux requested, the sources and the other requests; provided that its potential is not
flushed and the response is large enough to be told from zero. -/
theorem c47_value {N : Nat} {B : Mat K} (hN : 1 ≤ N) (hu : UpperIsLower N B) {timeStep : K}
    {s s' : NetCap.State K} (h : solveNormal N B timeStep s = some s') {i : Nat} (hi : i < N)
    (hr : dblEps < s.req i) {g : Nat → K} (hg : Response N (ldlt N B) i g) (hp : s'.pot i ≠ 0)
    (hb : dblEps < s.req i * |g i|) :
    s'.cap i = timeStep / |g i| := by
  have hd := (c47_outcome hN B timeStep s).1 ⟨s', h⟩
  obtain ⟨x, S⟩ := solveNormal_spec hu h
  obtain ⟨-, z, z1, z2, -⟩ := S.on i hi hr
  have hz : z i = x i + s.req i * g i := Sol.unique hu hd z1 (Sol.perturb S.sol hg) i hi
  have hx : s'.pot i = x i := by
    have := S.pot i
    by_cases hx : |x i| < dblEps
    · rw [if_pos ⟨hi, hx⟩] at this
      exact absurd this hp
    · rw [if_neg (fun hh => hx hh.2)] at this
      exact this
  have e := dblEps_pos (K := K)
  have hr0 : 0 < s.req i := e.trans hr
  have ha : |z i - s'.pot i| = s.req i * |g i| := by
    rw [hz, hx, add_sub_cancel_left, abs_mul, abs_of_pos hr0]
  rw [z2, ha, if_pos hb, mul_comm timeStep, mul_div_mul_left _ _ hr0.ne']

/-- C47: a node that does not request, or requests no more than `DBL_EPSILON`, has the capacitance zero;
a request that was answered is gone. -/
theorem c47_requests {N : Nat} {B : Mat K} (hu : UpperIsLower N B) {timeStep : K}
    {s s' : NetCap.State K} (h : solveNormal N B timeStep s = some s') {i : Nat} (hi : i < N) :
    (s.req i ≤ dblEps → s'.cap i = 0 ∧ s'.req i = s.req i ∧ ∀ j, s'.delta i j = s.delta i j) ∧
    (dblEps < s.req i → s'.req i = 0) := by
  obtain ⟨x, S⟩ := solveNormal_spec hu h
  exact ⟨fun hr => ⟨(S.off i hi hr).2.1, (S.off i hi hr).1, (S.off i hi hr).2.2⟩, fun hr => (S.on i hi hr).1⟩

/-- C47: in a matrix with non-positive terms off the diagonal and positive row sums, the response to a
unit source is non-negative and nowhere greater than at its own node. -/
theorem c47_response {N : Nat} {M : Nat → Nat → K} (ho : OffDiagNonpos N M)
    (hrs : ∀ k, k < N → 0 < rowSum N M k) {i : Nat} (hi : i < N) {g : Nat → K} (hg : Response N M i g) :
    0 < g i ∧ ∀ k, k < N → 0 ≤ g k ∧ g k ≤ g i := by
  have hne : (range N).Nonempty := ⟨i, mem_range.2 hi⟩
  -- the least value is not negative
  obtain ⟨m, hm, hmin⟩ := exists_min_image (range N) g hne
  obtain ⟨q, hq, hmax⟩ := exists_max_image (range N) g hne
  rw [mem_range] at hm hq
  have hlow : ∀ k, k < N → (∀ j, j < N → g k ≤ g j) → mulVec N M g k ≤ rowSum N M k * g k := by
    intro k hk hkm
    unfold mulVec rowSum
    rw [sum_mul]
    apply sum_le_sum
    intro j hj
    rw [mem_range] at hj
    by_cases hjk : j = k
    · rw [hjk]
    · exact mul_le_mul_of_nonpos_left (hkm j hj) (ho k j hk hj (fun h => hjk h.symm))
  have hhigh : ∀ k, k < N → (∀ j, j < N → g j ≤ g k) → rowSum N M k * g k ≤ mulVec N M g k := by
    intro k hk hkm
    unfold mulVec rowSum
    rw [sum_mul]
    apply sum_le_sum
    intro j hj
    rw [mem_range] at hj
    by_cases hjk : j = k
    · rw [hjk]
    · exact mul_le_mul_of_nonpos_left (hkm j hj) (ho k j hk hj (fun h => hjk h.symm))
  have h0 : 0 ≤ g m := by
    by_contra hn
    have h1 := hlow m hm (fun j hj => hmin j (mem_range.2 hj))
    rw [hg m hm] at h1
    have h2 := mul_neg_of_pos_of_neg (hrs m hm) (not_le.1 hn)
    have h3 : (0 : K) ≤ if m = i then 1 else 0 := by
      split_ifs
      · exact zero_le_one
      · exact le_rfl
    linarith
  have hnn : ∀ k, k < N → 0 ≤ g k := fun k hk => h0.trans (hmin k (mem_range.2 hk))
  have hpos : 0 < g i := by
    rcases (hnn i hi).eq_or_lt with h | h
    · exfalso
      have h1 := hlow i hi (fun j hj => by rw [← h]; exact hnn j hj)
      rw [hg i hi, if_pos rfl, ← h, mul_zero] at h1
      linarith [zero_lt_one (α := K)]
    · exact h
  refine ⟨hpos, fun k hk => ⟨hnn k hk, ?_⟩⟩
  by_cases hqi : q = i
  · rw [← hqi]
    exact hmax k (mem_range.2 hk)
  · exfalso
    have h1 := hhigh q hq (fun j hj => hmax j (mem_range.2 hj))
    rw [hg q hq, if_neg hqi] at h1
    have h2 : 0 < g q := hpos.trans_le (hmax i (mem_range.2 hi))
    have := mul_pos (hrs q hq) h2
    linarith

/-- C47: for such a matrix the capacitance lies between the time step times the sum of the row of the
node, which is what is connected to ground there, and the time step times its diagonal term, which is
what is connected to it altogether. -/
theorem c47_bounds {N : Nat} {B : Mat K} (hN : 1 ≤ N) (hu : UpperIsLower N B)
    (ho : OffDiagNonpos N (ldlt N B)) (hrs : ∀ k, k < N → 0 < rowSum N (ldlt N B) k) {timeStep : K}
    (ht : 0 ≤ timeStep)
    {s s' : NetCap.State K} (h : solveNormal N B timeStep s = some s') {i : Nat} (hi : i < N)
    (hr : dblEps < s.req i) {g : Nat → K} (hg : Response N (ldlt N B) i g) (hp : s'.pot i ≠ 0)
    (hb : dblEps < s.req i * g i) :
    timeStep * rowSum N (ldlt N B) i ≤ s'.cap i ∧ s'.cap i ≤ timeStep * ldlt N B i i := by
  obtain ⟨g0, gk⟩ := c47_response ho hrs hi hg
  rw [c47_value hN hu h hi hr hg hp (by rw [abs_of_pos g0]; exact hb), abs_of_pos g0]
  have hone : mulVec N (ldlt N B) g i = 1 := by rw [hg i hi, if_pos rfl]
  constructor
  · rw [le_div_iff₀ g0, mul_assoc]
    apply mul_le_of_le_one_right ht
    rw [← hone]
    unfold mulVec rowSum
    rw [sum_mul]
    apply sum_le_sum
    intro j hj
    rw [mem_range] at hj
    by_cases hji : j = i
    · rw [hji]
    · exact mul_le_mul_of_nonpos_left (gk j hj).2 (ho i j hi hj (fun h => hji h.symm))
  · rw [div_le_iff₀ g0, mul_assoc]
    apply le_mul_of_one_le_right ht
    rw [← hone]
    unfold mulVec
    rw [← add_sum_erase _ _ (mem_range.2 hi)]
    have : ∑ j ∈ (range N).erase i, ldlt N B i j * g j ≤ 0 := by
      apply sum_nonpos
      intro j hj
      rw [mem_erase, mem_range] at hj
      exact mul_nonpos_of_nonpos_of_nonneg (ho i j hi hj.2 (fun h => hj.1 h.symm)) (gk j hj.2).1
    linarith

/-- C47, violated when a network takes more than one minor step: a request that is made once per major
step, as `GunnsFluidExternalSupply` does, is answered by the first solution, and the next solution of the
same major step resets the answer to zero. -/
theorem c47_lost {N : Nat} {B B' : Mat K} (hu : UpperIsLower N B) (hu' : UpperIsLower N B') {timeStep : K}
    {s s' s'' t : NetCap.State K} (h : solveNormal N B timeStep s = some s') (ht : t.req = s'.req)
    (h' : solveNormal N B' timeStep t = some s'') {i : Nat} (hi : i < N) (hr : dblEps < s.req i) :
    s''.cap i = 0 := by
  have h1 := (c47_requests hu h hi).2 hr
  refine ((c47_requests hu' h' hi).1 ?_).1
  rw [ht, h1]
  exact (dblEps_pos (K := K)).le

/-- Two nodes: a capacitor of two units at node 0, one of three units at node 1 and a conductance of one
between them, for a time step of one; node 0 requests its capacitance. -/
def exCapMatrix : Mat ℚ := ofRows [[3, -1/3], [-1/3, 11/3]]

def exCapState : NetCap.State ℚ where
  req := fun i => if i = 0 then 1 / 1000 else 0
  cap := fun _ => 7
  delta := fun _ _ => 0
  w := fun i => if i = 0 then 2 else 3
  pot := fun _ => 0

/-- The capacitance found is `2 + 1·3/(1 + 3)`: the own capacitor and the other one through the
conductor. -/
example : (match solveNormal 2 exCapMatrix 1 exCapState with
    | some s => decide (s.cap 0 = 11 / 4 ∧ s.cap 1 = 0 ∧ s.pot 0 = 1 ∧ s.pot 1 = 1)
    | none => false) = true := by
  decide +kernel

/-- The hypotheses of the theorems hold for it: the factors are those of the matrix, and the response of
node 0 is `(4/11, 1/11)`. -/
example : (∀ i, i < 2 → ∀ j, j < 2 → ldlt 2 exCapMatrix i j = (ofRows [[3, -1], [-1, 4]] : Mat ℚ) i j) ∧
    UpperIsLower 2 exCapMatrix ∧ OffDiagNonpos 2 (ldlt 2 exCapMatrix) ∧
    (∀ k, k < 2 → 0 < rowSum 2 (ldlt 2 exCapMatrix) k) ∧
    Response 2 (ldlt 2 exCapMatrix) 0 (fun i => if i = 0 then 4 / 11 else 1 / 11) := by
  refine ⟨by decide +kernel, ?_, ?_, by decide +kernel, by unfold Response; decide +kernel⟩
  · intro i k hi hk
    obtain ⟨rfl, rfl⟩ : i = 1 ∧ k = 0 := by omega
    decide +kernel
  · have : ∀ i, i < 2 → ∀ j, j < 2 → i ≠ j → ldlt 2 exCapMatrix i j ≤ 0 := by decide +kernel
    exact fun i j hi hj hne => this i hi j hj hne

/-- A second solution without a new request: the capacitance is lost. -/
example : (match solveNormal 2 exCapMatrix 1 exCapState with
    | some s => match solveNormal 2 exCapMatrix 1 s with
      | some s => decide (s.cap 0 = 0)
      | none => false
    | none => false) = true := by
  decide +kernel

end Gunns.Props
