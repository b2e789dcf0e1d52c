import Verif.Solver.NetCap
import Verif.Props.LinAlg

/-!
# Lemmas about network capacitances
-/

namespace Gunns.NetCap

open Gunns Gunns.Spec Gunns.Props Finset

set_option linter.unusedSectionVars false

variable {K : Type _} [Field K] [LinearOrder K] [IsStrictOrderedRing K]

/-- A loop over the columns of a row that changes each entry once. -/
theorem row_loop (N node : Nat) (f : Nat → K → K) (d : Mat K) (i j : Nat) :
    loop (fun i d => Mat.set d node i (f i (d node i))) N d i j =
      if i = node ∧ j < N then f j (d i j) else d i j := by
  induction N generalizing i j with
  | zero => simp [loop_zero]
  | succ n ih =>
    rw [loop_succ]
    unfold Mat.set at ih ⊢
    by_cases h : i = node ∧ j = n
    · rw [if_pos h, if_pos ⟨h.1, by omega⟩, ih, if_neg (by omega), h.1, h.2]
    · rw [if_neg h, ih]
      by_cases h1 : i = node ∧ j < n
      · rw [if_pos h1, if_pos ⟨h1.1, by omega⟩]
      · rw [if_neg h1, if_neg (by omega)]

theorem clean_apply (n : Nat) (p : Vect K) (i : Nat) :
    cleanPot n p i = if i < n ∧ |p i| < dblEps then 0 else p i := by
  unfold cleanPot
  induction n generalizing i with
  | zero => simp [loop_zero]
  | succ n ih =>
    rw [loop_succ]
    have hn := ih n
    rw [if_neg (by omega)] at hn
    rw [hn]
    by_cases hp : |p n| < dblEps
    · rw [if_pos hp]
      show (if i = n then 0 else loop _ n p i) = _
      by_cases hi : i = n
      · rw [if_pos hi, if_pos ⟨by omega, by rw [hi]; exact hp⟩]
      · rw [if_neg hi, ih]
        by_cases h2 : i < n ∧ |p i| < dblEps
        · rw [if_pos h2, if_pos ⟨by omega, h2.2⟩]
        · rw [if_neg h2, if_neg (fun h3 => h2 ⟨by omega, h3.2⟩)]
    · rw [if_neg hp, ih]
      by_cases h2 : i < n ∧ |p i| < dblEps
      · rw [if_pos h2, if_pos ⟨by omega, h2.2⟩]
      · rw [if_neg h2, if_neg]
        rintro ⟨h3, h4⟩
        apply h2
        refine ⟨?_, h4⟩
        rcases Nat.lt_succ_iff_lt_or_eq.1 h3 with h5 | h5
        · exact h5
        · exact absurd (h5 ▸ h4) hp

/-- `x` solves the factored system with sources `w`. -/
def Sol (N : Nat) (B : Mat K) (w x : Vect K) : Prop := ∀ i, i < N → mulVec N (ldlt N B) x i = w i

theorem solve_some {N : Nat} {B : Mat K} {s s' : State K} (hu : UpperIsLower N B)
    (h : solveCholesky N B s = some s') :
    s' = { s with pot := s'.pot } ∧ Sol N B s.w s'.pot := by
  unfold solveCholesky at h
  cases hr : solve B s.w s.pot N with
  | ok x =>
    rw [hr] at h
    obtain rfl := Option.some.inj h
    exact ⟨rfl, c04_solve_correct hu hr⟩
  | failed r x => rw [hr] at h; exact nomatch h
  | outOfBounds => rw [hr] at h; exact nomatch h

theorem solve_ok {N : Nat} (hN : 1 ≤ N) {B : Mat K} (hd : ∀ k, k < N → B k k ≠ 0) (s : State K) :
    ∃ s', solveCholesky N B s = some s' := by
  obtain ⟨x, hx⟩ := (c04_solve_outcome hN B s.w s.pot).2.1.2 hd
  exact ⟨_, by unfold solveCholesky; rw [hx]⟩

/-- Factored systems with non-zero diagonal have unique solutions. -/
theorem Sol.unique {N : Nat} {B : Mat K} (hu : UpperIsLower N B) (hd : ∀ k, k < N → B k k ≠ 0)
    {w x z : Vect K} (hx : Sol N B w x) (hz : Sol N B w z) (i : Nat) (hi : i < N) : x i = z i := by
  obtain ⟨y, hy⟩ := (c04_solve_outcome (n := N) (by omega) B w x).2.1.2 hd
  rw [c04_solve_unique hu hy hx i hi, c04_solve_unique hu hy hz i hi]

theorem diag_of_some {N : Nat} (hN : 1 ≤ N) {B : Mat K} {s s' : State K}
    (h : solveCholesky N B s = some s') : ∀ k, k < N → B k k ≠ 0 := by
  unfold solveCholesky at h
  cases hr : solve B s.w s.pot N with
  | ok x => exact (c04_solve_outcome hN B s.w s.pot).2.1.1 ⟨x, hr⟩
  | failed r x => rw [hr] at h; exact nomatch h
  | outOfBounds => rw [hr] at h; exact nomatch h

/-- A solution with one source perturbed. -/
theorem Sol.perturb {N : Nat} {B : Mat K} {w x g : Vect K} {i : Nat} {f : K} (hx : Sol N B w x)
    (hg : Sol N B (fun j => if j = i then 1 else 0) g) :
    Sol N B (Vect.set w i (w i + f)) (fun j => x j + f * g j) := by
  intro k hk
  have e : mulVec N (ldlt N B) (fun j => x j + f * g j) k =
      mulVec N (ldlt N B) x k + f * mulVec N (ldlt N B) g k := by
    unfold mulVec
    rw [mul_sum, ← sum_add_distrib]
    apply sum_congr rfl
    intro j _
    ring
  rw [e, hx k hk, hg k hk]
  show w k + f * (if k = i then 1 else 0) = if k = i then w i + f else w k
  by_cases h : k = i
  · rw [if_pos h, if_pos h, h, mul_one]
  · rw [if_neg h, if_neg h, mul_zero, add_zero]

/-- After the loop of the first half over the nodes below `k`. -/
structure Perturbed (N : Nat) (B : Mat K) (k : Nat) (s t : State K) : Prop where
  req : t.req = s.req
  w : t.w = s.w
  on : ∀ i, i < k → dblEps < s.req i → ∃ z, Sol N B (Vect.set s.w i (s.w i + s.req i)) z ∧
    t.cap i = z i ∧ ∀ j, j < N → t.delta i j = z j
  off : ∀ i, i < k → s.req i ≤ dblEps → t.cap i = 0 ∧ ∀ j, t.delta i j = s.delta i j
  rest : ∀ i, k ≤ i → t.cap i = s.cap i ∧ ∀ j, t.delta i j = s.delta i j

theorem set_restore (w : Vect K) (i : Nat) (v : K) : Vect.set (Vect.set w i v) i (w i) = w := by
  funext j
  unfold Vect.set
  by_cases h : j = i
  · rw [if_pos h, h]
  · rw [if_neg h, if_neg h]

theorem perturb_spec {N : Nat} {B : Mat K} (hu : UpperIsLower N B) (s : State K) (k : Nat) :
    ∀ t, loop (fun node o => o.bind (perturbNode N B node)) k (some s) = some t →
      Perturbed N B k s t := by
  induction k with
  | zero =>
    intro t h
    obtain rfl := Option.some.inj h
    exact ⟨rfl, rfl, fun i hi => absurd hi (by omega), fun i hi => absurd hi (by omega), fun i _ => ⟨rfl, fun _ => rfl⟩⟩
  | succ k ih =>
    intro t h
    rw [loop_succ] at h
    obtain ⟨u, hu1, hu2⟩ := Option.bind_eq_some_iff.1 h
    have I := ih u hu1
    unfold perturbNode at hu2
    simp only [] at hu2
    by_cases hr : u.req k > dblEps
    · rw [if_pos hr] at hu2
      cases hc : solveCholesky N B { u with w := Vect.set u.w k (u.w k + u.req k) } with
      | none => rw [hc] at hu2; exact nomatch hu2
      | some v =>
        rw [hc] at hu2
        obtain rfl := Option.some.inj hu2
        obtain ⟨hv, hs⟩ := solve_some hu hc
        have hdel : ∀ i j, loop (fun i d => Mat.set d k i (v.pot i)) N v.delta i j =
            if i = k ∧ j < N then v.pot j else v.delta i j := fun i j =>
          row_loop N k (fun i _ => v.pot i) v.delta i j
        have e1 : v.cap = u.cap := by rw [hv]
        have e2 : v.delta = u.delta := by rw [hv]
        have e3 : v.w = Vect.set u.w k (u.w k + u.req k) := by rw [hv]
        have e4 : v.req = u.req := by rw [hv]
        refine ⟨e4.trans I.req, ?_, ?_, ?_, ?_⟩
        · show Vect.set v.w k (u.w k) = s.w
          rw [e3, set_restore, I.w]
        · intro i hi hri
          by_cases hik : i = k
          · refine ⟨v.pot, ?_, ?_, ?_⟩
            · rw [hik, ← I.w, ← I.req]; exact hs
            · show Vect.set v.cap k (v.pot k) i = _
              unfold Vect.set
              rw [if_pos hik, hik]
            · intro j hj
              show loop _ N v.delta i j = _
              rw [hdel, if_pos ⟨hik, hj⟩]
          · obtain ⟨z, z1, z2, z3⟩ := I.on i (by omega) hri
            refine ⟨z, z1, ?_, ?_⟩
            · show Vect.set v.cap k (v.pot k) i = _
              unfold Vect.set
              rw [if_neg hik, e1, z2]
            · intro j hj
              show loop _ N v.delta i j = _
              rw [hdel, if_neg (fun h => hik h.1), e2, z3 j hj]
        · intro i hi hri
          have hik : i ≠ k := by
            rintro rfl
            rw [I.req] at hr
            exact absurd hr (not_lt.2 hri)
          obtain ⟨z1, z2⟩ := I.off i (by omega) hri
          refine ⟨?_, ?_⟩
          · show Vect.set v.cap k (v.pot k) i = _
            unfold Vect.set
            rw [if_neg hik, e1, z1]
          · intro j
            show loop _ N v.delta i j = _
            rw [hdel, if_neg (fun h => hik h.1), e2, z2 j]
        · intro i hi
          have hik : i ≠ k := by omega
          obtain ⟨z1, z2⟩ := I.rest i (by omega)
          refine ⟨?_, ?_⟩
          · show Vect.set v.cap k (v.pot k) i = _
            unfold Vect.set
            rw [if_neg hik, e1, z1]
          · intro j
            show loop _ N v.delta i j = _
            rw [hdel, if_neg (fun h => hik h.1), e2, z2 j]
    · rw [if_neg hr] at hu2
      obtain rfl := Option.some.inj hu2
      refine ⟨I.req, I.w, ?_, ?_, ?_⟩
      · intro i hi hri
        have hik : i ≠ k := by
          rintro rfl
          rw [I.req] at hr
          exact hr hri
        obtain ⟨z, z1, z2, z3⟩ := I.on i (by omega) hri
        refine ⟨z, z1, ?_, z3⟩
        show Vect.set u.cap k 0 i = _
        unfold Vect.set
        rw [if_neg hik, z2]
      · intro i hi hri
        by_cases hik : i = k
        · refine ⟨?_, (I.rest i (by omega)).2⟩
          show Vect.set u.cap k 0 i = _
          unfold Vect.set
          rw [if_pos hik]
        · obtain ⟨z1, z2⟩ := I.off i (by omega) hri
          refine ⟨?_, z2⟩
          show Vect.set u.cap k 0 i = _
          unfold Vect.set
          rw [if_neg hik, z1]
      · intro i hi
        obtain ⟨z1, z2⟩ := I.rest i (by omega)
        refine ⟨?_, z2⟩
        show Vect.set u.cap k 0 i = _
        unfold Vect.set
        rw [if_neg (by omega), z1]

theorem perturb_ok {N : Nat} (hN : 1 ≤ N) {B : Mat K} (hd : ∀ k, k < N → B k k ≠ 0) (s : State K) (k : Nat) :
    ∃ t, loop (fun node o => o.bind (perturbNode N B node)) k (some s) = some t := by
  induction k with
  | zero => exact ⟨s, rfl⟩
  | succ k ih =>
    obtain ⟨t, ht⟩ := ih
    rw [loop_succ, ht]
    show ∃ u, perturbNode N B k t = some u
    unfold perturbNode
    simp only []
    split_ifs
    · obtain ⟨v, hv⟩ := solve_ok hN hd { t with w := Vect.set t.w k (t.w k + t.req k) }
      rw [hv]
      exact ⟨_, rfl⟩
    · exact ⟨_, rfl⟩

/-- After the loop of the second half over the nodes below `k`. -/
structure Computed (N : Nat) (timeStep : K) (k : Nat) (s t : State K) : Prop where
  w : t.w = s.w
  pot : t.pot = s.pot
  on : ∀ i, i < k → dblEps < s.req i → t.req i = 0 ∧
    t.cap i = (if |s.cap i - s.pot i| > dblEps then timeStep * s.req i / |s.cap i - s.pot i| else 0) ∧
    ∀ j, j < N → t.delta i j = s.delta i j - s.pot j
  off : ∀ i, k ≤ i ∨ s.req i ≤ dblEps → t.req i = s.req i ∧ t.cap i = s.cap i ∧ ∀ j, t.delta i j = s.delta i j

theorem compute_spec (N : Nat) (timeStep : K) (s : State K) (k : Nat) :
    Computed N timeStep k s (loop (computeNode N timeStep) k s) := by
  induction k with
  | zero => exact ⟨rfl, rfl, fun i hi => absurd hi (by omega), fun i _ => ⟨rfl, rfl, fun _ => rfl⟩⟩
  | succ k ih =>
    rw [loop_succ]
    obtain ⟨t, ht⟩ : ∃ t, t = loop (computeNode N timeStep) k s := ⟨_, rfl⟩
    rw [← ht] at ih ⊢
    obtain ⟨o1, o2, o3⟩ := ih.off k (Or.inl le_rfl)
    unfold computeNode
    simp only []
    have hdel : ∀ i j, loop (fun i d => Mat.set d k i (d k i - t.pot i)) N t.delta i j =
        if i = k ∧ j < N then t.delta i j - t.pot j else t.delta i j := fun i j =>
      row_loop N k (fun i a => a - t.pot i) t.delta i j
    by_cases hr : t.req k > dblEps
    · rw [if_pos hr]
      refine ⟨ih.w, ih.pot, ?_, ?_⟩
      · intro i hi hri
        by_cases hik : i = k
        · subst hik
          refine ⟨?_, ?_, ?_⟩
          · show Vect.set t.req i 0 i = 0
            unfold Vect.set
            rw [if_pos rfl]
          · show Vect.set t.cap i _ i = _
            unfold Vect.set
            rw [if_pos rfl, o1, o2, ih.pot]
          · intro j hj
            show loop _ N t.delta i j = _
            rw [hdel, if_pos ⟨rfl, hj⟩, o3, ih.pot]
        · obtain ⟨p1, p2, p3⟩ := ih.on i (by omega) hri
          refine ⟨?_, ?_, ?_⟩
          · show Vect.set t.req k 0 i = 0
            unfold Vect.set
            rw [if_neg hik, p1]
          · show Vect.set t.cap k _ i = _
            unfold Vect.set
            rw [if_neg hik, p2]
          · intro j hj
            show loop _ N t.delta i j = _
            rw [hdel, if_neg (fun h => hik h.1), p3 j hj]
      · intro i hi
        have hik : i ≠ k := by
          rintro rfl
          rcases hi with h | h
          · omega
          · rw [o1] at hr
            exact absurd hr (not_lt.2 h)
        obtain ⟨p1, p2, p3⟩ := ih.off i (hi.imp_left (by omega))
        refine ⟨?_, ?_, ?_⟩
        · show Vect.set t.req k 0 i = _
          unfold Vect.set
          rw [if_neg hik, p1]
        · show Vect.set t.cap k _ i = _
          unfold Vect.set
          rw [if_neg hik, p2]
        · intro j
          show loop _ N t.delta i j = _
          rw [hdel, if_neg (fun h => hik h.1), p3]
    · rw [if_neg hr]
      refine ⟨ih.w, ih.pot, ?_, ?_⟩
      · intro i hi hri
        have hik : i ≠ k := by
          rintro rfl
          rw [o1] at hr
          exact hr hri
        exact ih.on i (by omega) hri
      · intro i hi
        by_cases hik : i = k
        · exact ih.off i (Or.inl hik.ge)
        · exact ih.off i (hi.imp_left (by omega))

/-- Everything about one solution. -/
structure Solved (N : Nat) (B : Mat K) (timeStep : K) (s s' : State K) (x : Vect K) : Prop where
  sol : Sol N B s.w x
  pot : ∀ j, s'.pot j = if j < N ∧ |x j| < dblEps then 0 else x j
  w : s'.w = s.w
  on : ∀ i, i < N → dblEps < s.req i → s'.req i = 0 ∧
    ∃ z, Sol N B (Vect.set s.w i (s.w i + s.req i)) z ∧
    s'.cap i = (if |z i - s'.pot i| > dblEps then timeStep * s.req i / |z i - s'.pot i| else 0) ∧
    ∀ j, j < N → s'.delta i j = z j - s'.pot j
  off : ∀ i, i < N → s.req i ≤ dblEps → s'.req i = s.req i ∧ s'.cap i = 0 ∧ ∀ j, s'.delta i j = s.delta i j

theorem solveNormal_spec {N : Nat} {B : Mat K} (hu : UpperIsLower N B) {timeStep : K} {s s' : State K}
    (h : solveNormal N B timeStep s = some s') : ∃ x, Solved N B timeStep s s' x := by
  unfold solveNormal at h
  obtain ⟨t, ht, h⟩ := Option.bind_eq_some_iff.1 h
  obtain ⟨u, hu', rfl⟩ := Option.map_eq_some_iff.1 h
  have P := perturb_spec hu s N t ht
  obtain ⟨e, hs⟩ := solve_some hu hu'
  have C := compute_spec N timeStep { u with pot := cleanPot N u.pot } N
  have e1 : u.req = t.req := by rw [e]
  have e2 : u.cap = t.cap := by rw [e]
  have e3 : u.delta = t.delta := by rw [e]
  have e4 : u.w = t.w := by rw [e]
  refine ⟨u.pot, ?_, ?_, ?_, ?_, ?_⟩
  · rw [← P.w]; exact hs
  · intro j
    have : (compute N timeStep { u with pot := cleanPot N u.pot }).pot = cleanPot N u.pot := C.pot
    rw [this, clean_apply]
  · exact C.w.trans (e4.trans P.w)
  · intro i hi hr
    have hr' : dblEps < u.req i := by rw [e1, P.req]; exact hr
    obtain ⟨c1, c2, c3⟩ := C.on i hi hr'
    obtain ⟨z, z1, z2, z3⟩ := P.on i hi hr
    have hpot : (compute N timeStep { u with pot := cleanPot N u.pot }).pot = cleanPot N u.pot := C.pot
    refine ⟨c1, z, z1, ?_, ?_⟩
    · rw [hpot]
      refine c2.trans ?_
      simp only [e1, e2, P.req, z2]
    · intro j hj
      rw [hpot]
      refine (c3 j hj).trans ?_
      simp only [e3, z3 j hj]
  · intro i hi hr
    have hr' : u.req i ≤ dblEps := by rw [e1, P.req]; exact hr
    obtain ⟨c1, c2, c3⟩ := C.off i (Or.inr hr')
    obtain ⟨z1, z2⟩ := P.off i hi hr
    refine ⟨c1.trans (by rw [e1, P.req]), c2.trans (by rw [e2, z1]), fun j => (c3 j).trans (by rw [e3, z2])⟩

end Gunns.NetCap
