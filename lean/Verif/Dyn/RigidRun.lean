import Verif.Dyn.RigidMatrix

/-!
# Calls of the rigid body state derivative
-/

set_option linter.unusedSectionVars false

namespace Gunns.Dyn

open Gunns.Spec Finset

variable {K : Type _} [Field K] [LinearOrder K] [IsStrictOrderedRing K]

theorem same_iff (p q : MassProps K) : p.same q = true ↔
    p.mass = q.mass ∧ (p.cm 0 = q.cm 0 ∧ p.cm 1 = q.cm 1 ∧ p.cm 2 = q.cm 2) ∧ p.ixx = q.ixx ∧
    p.ixy = q.ixy ∧ p.ixz = q.ixz ∧ p.iyy = q.iyy ∧ p.iyz = q.iyz ∧ p.izz = q.izz := by
  unfold MassProps.same
  simp [and_assoc]

theorem same_massMatrix (p q : MassProps K) (h : p.same q = true) :
    massMatrix p = massMatrix q ∧ p.rejected = q.rejected := by
  rw [same_iff] at h
  obtain ⟨h1, ⟨h2, h3, h4⟩, h5, h6, h7, h8, h9, h10⟩ := h
  constructor
  · unfold massMatrix MassProps.isCmOffset isNonZeroV3 skew
    simp only [h1, h2, h3, h4, h5, h6, h7, h8, h9, h10]
  · unfold MassProps.rejected
    simp only [h1, h5, h6, h7, h8, h9, h10]

theorem default_rejected : (MassProps.default : MassProps K).rejected = true := by
  unfold MassProps.rejected MassProps.default
  simp [dblEps_pos]

/-- What every call leaves behind. -/
structure Inv (d : Deriv K) : Prop where
  views : ∃ src, d.solver.env.views = fun _ => rigidView (massMatrix d.last) src
  ovr : ∀ l p, d.solver.env.ovr l p = false
  priv : d.solver.env.priv = false
  rebuild : d.solver.rebuild = false
  mat : d.last.rejected = true ∨ decompose (condMat d.last) 6 = .ok d.solver.mat

theorem massMatrix_default : massMatrix (MassProps.default : MassProps K) = zeroV := by
  have h : (MassProps.default : MassProps K).isCmOffset = false := by
    unfold MassProps.isCmOffset isNonZeroV3 MassProps.default zeroV
    simp
  unfold massMatrix
  rw [h]
  funext k
  have e : ∀ i, Vect.set (zeroV : Arr K) i 0 = zeroV := by
    intro i
    funext a
    unfold Vect.set zeroV
    split <;> rfl
  simp only [MassProps.default, store, List.foldl, Bool.false_eq_true, if_false, e]

theorem inv_init : Inv (Deriv.init : Deriv K) where
  views := ⟨zeroV, by
    funext _
    show rigidView zeroV zeroV = rigidView (massMatrix MassProps.default) zeroV
    rw [massMatrix_default]⟩
  ovr := fun _ _ => rfl
  priv := rfl
  rebuild := rfl
  mat := Or.inl default_rejected

/-- One term of the solution after the flush of tiny potentials. -/
def cleanV (x : K) : K := if |x| < dblEps then 0 else x

theorem cleanPot_eq (n : Nat) (p : Vect K) (k : Nat) :
    cleanPot n p k = if k < n then cleanV (p k) else p k := by
  unfold cleanPot
  induction n with
  | zero => simp
  | succ n ih =>
    rw [loop_succ]
    by_cases hk : k = n
    · subst hk
      rw [if_neg (lt_irrefl k)] at ih
      rw [if_pos (Nat.lt_succ_self k), ih, cleanV]
      by_cases h : |p k| < dblEps
      · rw [if_pos h, if_pos h, Vect.set_same]
      · rw [if_neg h, if_neg h, ih]
    · have e : (k < n + 1) ↔ k < n := by omega
      simp only [e]
      rw [← ih]
      split
      · rw [Vect.set_ne _ _ _ _ hk]
      · rfl

/-- Solution of the decomposed system. -/
theorem solve_ok (B : Mat K) (w x0 : Vect K) (hB : ∀ k, k < 6 → B k k ≠ 0) :
    ∃ x, solve B w x0 6 = .ok x := by
  obtain ⟨-, s2, s3⟩ := solve_spec B w x0 6 (by omega)
  cases h : solve B w x0 6 with
  | ok x => exact ⟨x, rfl⟩
  | failed r x => exact absurd (s2 r x h).2.1 (hB r (s2 r x h).1)
  | outOfBounds => exact absurd h s3

theorem solve_unique (B : Mat K) (w w' x0 x0' x x' : Vect K) (hw : ∀ k, k < 6 → w k = w' k)
    (h : solve B w x0 6 = .ok x) (h' : solve B w' x0' 6 = .ok x') : ∀ k, k < 6 → x k = x' k := by
  obtain ⟨hd, e⟩ := (solve_spec B w x0 6 (by omega)).1 x h
  obtain ⟨-, e'⟩ := (solve_spec B w' x0' 6 (by omega)).1 x' h'
  have hl : ∀ k, k < 6 → solveUnitLower B w x0 6 k = solveUnitLower B w' x0' 6 k := by
    apply unitLower_inj 6 B
    intro k hk
    rw [lower_solves B w x0 6 k hk, lower_solves B w' x0' 6 k hk, hw k hk]
  apply unitUpper_inj 6 B
  intro k hk
  have := e k hk
  rw [hl k hk, ← e' k hk] at this
  exact mul_left_cancel₀ (hd k hk) this

/-- The loop over the single link. -/
theorem stepLinks_rigid (s : State Bool K) (h1 : s.lastMinor = 1) :
    stepLinks rigidMethods rigidCfg s =
      { s with
        env := { s.env with priv := false }
        calls := s.calls ++ [.step 0]
        rebuild := if s.env.priv then true else s.rebuild } := by
  unfold stepLinks
  simp [rigidCfg, loop, h1, rigidMethods]

/-- The state in which the minor step of the solver builds its system. -/
def stepped (s : State Bool K) : State Bool K :=
  { s with
    majorCount := s.majorCount + 1
    hist := []
    calls := [.inputs 0, .step 0]
    solves := []
    decomps := 0
    lastDecomp := 0
    lastMinor := 1
    minorCount := s.minorCount + 1
    maxMinor := if s.maxMinor < 1 then 1 else s.maxMinor
    env := { s.env with priv := false }
    rebuild := if s.env.priv then true else s.rebuild }

/-- The end of the step of the solver. -/
def finished (s : State Bool K) : State Bool K :=
  finishStep rigidMethods rigidCfg
    { s := { (outputPotential rigidCfg (overridePotential rigidCfg s)) with
        lastMinor := (outputPotential rigidCfg (overridePotential rigidCfg s)).lastMinor + 1 }
      networkConverged := true
      convergedStep := 0
      result := .confirm }

theorem step_rigid (s : State Bool K) :
    Gunns.step rigidMethods rigidCfg s =
      match buildAndSolve rigidCfg (stepped s) with
      | .ok s => .ok (finished s)
      | .limit s => .ok (finishStep rigidMethods rigidCfg ⟨s, false, 0, .confirm⟩)
      | .numeric s => .numeric s
      | .nan s => .nan s
      | .ub s => .ub s := by
  have hin : ∀ s : State Bool K, linksInputs rigidMethods rigidCfg s =
      { s with calls := s.calls ++ [.inputs 0] } := by
    intro s
    unfold linksInputs
    simp [rigidCfg, loop, rigidMethods]
  unfold Gunns.step iterateMinorSteps effectiveLimit
  simp only [show (rigidCfg : Cfg K).paused = false from rfl, Bool.false_eq_true, if_false,
    show (rigidCfg : Cfg K).linear = true from rfl, true_or, if_true, decide_true]
  rw [minorLoop]
  unfold minorBody
  rw [hin]
  simp only [ne_eq, reduceCtorEq, not_false_eq_true, if_true]
  rw [stepLinks_rigid _ rfl]
  simp only [show (rigidCfg : Cfg K).worstCaseTiming = false from rfl, Bool.false_eq_true, if_false]
  generalize hb : buildAndSolve (σ := Bool) (rigidCfg : Cfg K) _ = r
  have hb' : buildAndSolve rigidCfg (stepped s) = r := hb
  rw [hb']
  cases r <;> rfl

theorem sysMat_congr (p q : MassProps K) (h : massMatrix p = massMatrix q) : sysMat p = sysMat q := by
  unfold sysMat; rw [h]

theorem condMat_congr (p q : MassProps K) (h : massMatrix p = massMatrix q) :
    condMat p = condMat q := by
  unfold condMat; rw [sysMat_congr p q h]

theorem decomposed_diag (p : MassProps K) (h : p.rejected = false) (B : Mat K)
    (hB : decompose (condMat p) 6 = .ok B) :
    HoldsFactors (condMat p) 5 B ∧ ∀ k, k < 6 → 0 < piv (condMat p) k ∧ B k k = piv (condMat p) k := by
  have h00 : 0 < condMat p 0 0 := dblEps_pos.trans_le
    ((massTab_diag p h 0 (by omega)).trans (condMat_diag p h 0 (by omega)).1)
  obtain ⟨h1, h2⟩ := ok_facts h00 hB
  exact ⟨h1, fun k hk => ⟨h2 k hk, h1.1 k (by omega)⟩⟩

theorem buildAndSolve_rigid (s : State Bool K) (p : MassProps K) (src : Arr K)
    (hv : s.env.views = fun _ => rigidView (massMatrix p) src) (hr : p.rejected = false)
    (hl : s.lastDecomp = 0)
    (hm : s.rebuild = false → decompose (condMat p) 6 = .ok s.mat) :
    (∀ B, decompose (condMat p) 6 = .ok B →
      ∃ s' x, buildAndSolve rigidCfg s = .ok s' ∧
        solve B (buildSource 6 [rigidView (massMatrix p) src]) s.pot 6 = .ok x ∧
        s'.env = s.env ∧ s'.pot = cleanPot 6 x ∧ s'.mat = B ∧ s'.rebuild = false) ∧
    ((∀ B, decompose (condMat p) 6 ≠ .ok B) →
      ∃ s' L r, buildAndSolve rigidCfg s = .numeric s' ∧ s'.env = s.env ∧ s'.rebuild = false ∧
        s'.pot = s.pot ∧ decomposeIslands 6 (sysMat p) (condMat p) = .failed L r s'.mat) := by
  have hlinks : s.env.links rigidCfg = [rigidView (massMatrix p) src] := by
    unfold Env.links
    rw [hv]
    rfl
  have hsys : asMat 6 (buildAdmittance 6 [rigidView (massMatrix p) src]) = sysMat p := rfl
  have hsolve : ∀ (t : State Bool K) (w x : Vect K), solve t.mat w t.pot 6 = .ok x →
      ∃ s', solveSystem rigidCfg w t = .ok s' ∧ s'.env = t.env ∧ s'.pot = cleanPot 6 x ∧
        s'.mat = t.mat ∧ s'.rebuild = t.rebuild := by
    intro t w x h
    unfold solveSystem
    simp only [show (rigidCfg : Cfg K).mode = .normal from rfl,
      show (rigidCfg : Cfg K).size = 6 from rfl]
    rw [h]
    exact ⟨_, rfl, rfl, rfl, rfl, rfl⟩
  unfold buildAndSolve
  dsimp only
  have hsor : ∀ (w : Vect K) (t : State Bool K), trySor rigidCfg w t = { t with sorLast := -1 } :=
    fun _ _ => rfl
  rw [hsor]
  dsimp only
  rw [if_pos (by decide), hlinks]
  cases hb : s.rebuild with
  | false =>
    have hbs : buildSystem rigidCfg s = (false, s) := by
      unfold buildSystem
      rw [if_neg]
      rw [hb]
      simp [rigidCfg]
    rw [hbs]
    dsimp only
    rw [if_neg (by simp)]
    have hmat := hm hb
    constructor
    · intro B hB
      obtain rfl : s.mat = B := by
        rw [hmat] at hB
        exact DecompResult.ok.inj hB
      obtain ⟨x, hx⟩ := solve_ok s.mat (buildSource 6 [rigidView (massMatrix p) src]) s.pot
        (fun k hk => by
          obtain ⟨g1, g2⟩ := (decomposed_diag p hr s.mat hB).2 k hk
          rw [g2]; exact g1.ne')
      obtain ⟨s', g1, g2, g3, g4, g5⟩ := hsolve { s with sorLast := -1 } _ x hx
      exact ⟨s', x, g1, hx, g2, g3, g4, g5.trans hb⟩
    · intro hn
      exact absurd hmat (hn _)
  | true =>
    have hbs : buildSystem rigidCfg s = (true, { s with
        mat := condMat p
        rebuild := false }) := by
      unfold buildSystem
      rw [if_pos (Or.inl hb), hlinks]
      rfl
    rw [hbs]
    dsimp only
    rw [if_pos ⟨rfl, rfl⟩, hl, if_pos (show 0 < (rigidCfg : Cfg K).decompositionLimit from Nat.one_pos)]
    unfold factor
    simp only [show (rigidCfg : Cfg K).islandSolve = true from rfl, if_true]
    have hl2 : ∀ e : Env Bool K, e.views = s.env.views → e.links rigidCfg =
        [rigidView (massMatrix p) src] := by
      intro e he
      unfold Env.links
      rw [he, hv]
      rfl
    rw [hl2 _ rfl]
    simp only [show (rigidCfg : Cfg K).size = 6 from rfl]
    rw [hsys]
    constructor
    · intro B hB
      rw [(decomposeIslands_iff p hr B).mpr hB]
      dsimp only
      obtain ⟨x, hx⟩ := solve_ok B (buildSource 6 [rigidView (massMatrix p) src]) s.pot
        (fun k hk => by
          obtain ⟨g1, g2⟩ := (decomposed_diag p hr B hB).2 k hk
          rw [g2]; exact g1.ne')
      obtain ⟨s', g1, g2, g3, g4, g5⟩ := hsolve { s with
        mat := B
        rebuild := false
        sorLast := -1
        lastDecomp := 0 + 1
        decompCount := s.decompCount + 1
        decomps := s.decomps + 1 } _ x hx
      exact ⟨s', x, g1, hx, g2, g3, g4, g5⟩
    · intro hn
      obtain ⟨L, r, B, hf⟩ := decomposeIslands_failed p hr hn
      rw [hf]
      exact ⟨_, L, r, rfl, rfl, rfl, rfl, rfl⟩

theorem finished_spec (s : State Bool K) (ho : ∀ l p, s.env.ovr l p = false)
    (hp : (s.env.views 0).ports = 6) (hn : (s.env.views 0).nodeMap = fun i => i) :
    (finished s).env.views = s.env.views ∧ (finished s).env.ovr = s.env.ovr ∧
    (finished s).env.priv = s.env.priv ∧ (finished s).rebuild = false ∧
    (finished s).mat = s.mat ∧ ∀ k, k < 6 → (finished s).env.linkPot 0 k = s.pot k := by
  have hov : overridePotential rigidCfg s = s := by
    unfold overridePotential
    simp only [show (rigidCfg : Cfg K).mode = .normal from rfl]
    have : overrideLink 6 s.env 0 s.pot = s.pot := by
      unfold overrideLink
      exact loop_inv (fun _ p => p = s.pot) _ rfl (fun k _ t ht => by simp [ho, ht])
    rw [show loop (overrideLink (rigidCfg : Cfg K).size s.env) (rigidCfg : Cfg K).numLinks s.pot
      = overrideLink 6 s.env 0 s.pot from rfl, this]
  unfold finished
  rw [hov]
  refine ⟨rfl, rfl, rfl, rfl, rfl, ?_⟩
  intro k hk
  show (if _ then (if (s.env.views 0).nodeMap k < 6 then s.pot ((s.env.views 0).nodeMap k) else 0)
    else s.env.linkPot 0 k) = _
  rw [if_pos (show 0 < (rigidCfg : Cfg K).numLinks ∧ k < (s.env.views 0).ports from ⟨Nat.one_pos, hp ▸ hk⟩)]
  have e : (s.env.views 0).nodeMap k = k := by rw [hn]
  rw [e, if_pos hk]

/-- The link after its matrix and source vector are built. -/
def Deriv.prepared (i : DerivInput K) (d : Deriv K) : Deriv K :=
  (d.buildAdmittance i.props).buildSource i.props i.angVel i.forces i.torques

theorem prepared_spec (i : DerivInput K) (d : Deriv K) (h : Inv d) (hr : i.props.rejected = false) :
    let e := d.prepared i
    (e.solver.env.views = fun _ => rigidView (massMatrix i.props)
      (rigidSource i.props i.angVel i.forces i.torques)) ∧
    e.solver.env.ovr = d.solver.env.ovr ∧ e.solver.rebuild = false ∧ e.solver.pot = d.solver.pot ∧
    massMatrix e.last = massMatrix i.props ∧ e.last.rejected = false ∧
    (e.solver.env.priv = false → decompose (condMat i.props) 6 = .ok e.solver.mat) := by
  intro e
  obtain ⟨⟨src, hv⟩, h2, h3, h4, h5⟩ := h
  by_cases hs : i.props.same d.last = false
  · have he : e = Deriv.buildSource i.props i.angVel i.forces i.torques { d with
        last := i.props
        solver := { d.solver with
          env := { d.solver.env with
            views := fun _ => rigidView (massMatrix i.props) (d.solver.env.views 0).src
            priv := true } } } := by
      show (d.buildAdmittance i.props).buildSource _ _ _ _ = _
      unfold Deriv.buildAdmittance
      rw [if_pos hs]
    rw [he]
    refine ⟨rfl, rfl, h4, rfl, rfl, hr, ?_⟩
    intro hc
    cases hc
  · have hs' : i.props.same d.last = true := by simpa using hs
    have he : e = Deriv.buildSource i.props i.angVel i.forces i.torques d := by
      show (d.buildAdmittance i.props).buildSource _ _ _ _ = _
      unfold Deriv.buildAdmittance
      rw [if_neg hs]
    obtain ⟨g1, g2⟩ := same_massMatrix _ _ hs'
    rw [he]
    refine ⟨?_, rfl, h4, rfl, g1.symm, g2 ▸ hr, ?_⟩
    · show (fun _ => rigidView (d.solver.env.views 0).adm _) = _
      rw [hv, g1]
      rfl
    · intro _
      rcases h5 with h5 | h5
      · rw [← g2, hr] at h5
        cases h5
      · rw [condMat_congr _ _ g1]
        exact h5

theorem update_ok (i : DerivInput K) (d : Deriv K) (h : Inv d) (hr : i.props.rejected = false)
    (B : Mat K) (hB : decompose (condMat i.props) 6 = .ok B) :
    ∃ d' x, d.update i = .ok d' ∧ Inv d' ∧
      solve B (buildSource 6 [rigidView (massMatrix i.props)
        (rigidSource i.props i.angVel i.forces i.torques)]) d.solver.pot 6 = .ok x ∧
      (∀ k, k < 3 → d'.acc k = cleanV (x k) ∧ d'.angAcc k = cleanV (x (3 + k))) ∧
      d'.qd = qdot i.quat i.angVel ∧ massMatrix d'.last = massMatrix i.props := by
  obtain ⟨p1, p2, p3, p4, p5, p6, p7⟩ := prepared_spec i d h hr
  have hst := buildAndSolve_rigid (stepped (d.prepared i).solver) i.props
    (rigidSource i.props i.angVel i.forces i.torques) p1 hr rfl (by
      intro hrb
      apply p7
      cases hc : (d.prepared i).solver.env.priv with
      | false => rfl
      | true =>
        simp only [stepped, hc, if_true] at hrb
        cases hrb)
  obtain ⟨s', x, q1, q2, q3, q4, q5, q6⟩ := hst.1 B hB
  have hfin := finished_spec s'
    (by rw [q3]; intro l k; show (d.prepared i).solver.env.ovr l k = false; rw [p2]; exact h.ovr l k)
    (by rw [q3]; show ((d.prepared i).solver.env.views 0).ports = 6; rw [p1]; rfl)
    (by rw [q3]; show ((d.prepared i).solver.env.views 0).nodeMap = _; rw [p1]; rfl)
  obtain ⟨f1, f2, f3, f4, f5, f6⟩ := hfin
  have hstep := step_rigid (d.prepared i).solver
  rw [q1] at hstep
  dsimp only at hstep
  refine ⟨{ last := (d.prepared i).last
            solver := finished s'
            acc := fun k => (finished s').env.linkPot 0 k
            angAcc := fun k => (finished s').env.linkPot 0 (3 + k)
            qd := qdot i.quat i.angVel }, x, ?_, ?_, ?_, ?_, rfl, ?_⟩
  · unfold Deriv.update
    rw [hr]
    simp only [Bool.false_eq_true, if_false]
    change (match Gunns.step rigidMethods rigidCfg (d.prepared i).solver with
      | .ok s => _ | .numeric s => _ | .nan s => _ | .ub s => _) = _
    rw [hstep]
    rfl
  · refine ⟨⟨rigidSource i.props i.angVel i.forces i.torques, ?_⟩, ?_, ?_, f4, Or.inr ?_⟩
    · show (finished s').env.views = fun _ => rigidView (massMatrix (d.prepared i).last) _
      rw [f1, q3, p5]
      exact p1
    · intro l k
      show (finished s').env.ovr l k = false
      rw [f2, q3]
      show (d.prepared i).solver.env.ovr l k = false
      rw [p2]; exact h.ovr l k
    · show (finished s').env.priv = false
      rw [f3, q3]
      rfl
    · show decompose (condMat (d.prepared i).last) 6 = .ok (finished s').mat
      rw [condMat_congr _ _ p5, f5, q5]
      exact hB
  · rw [show d.solver.pot = (stepped (d.prepared i).solver).pot from p4.symm]
    exact q2
  · intro k hk
    have e : ∀ k, k < 6 → (finished s').env.linkPot 0 k = cleanV (x k) := by
      intro k hk
      rw [f6 k hk, q4, cleanPot_eq, if_pos hk]
    exact ⟨e k (by omega), e (3 + k) (by omega)⟩
  · exact p5

theorem update_numeric (i : DerivInput K) (d : Deriv K) (h : Inv d) (hr : i.props.rejected = false)
    (hn : ∀ B, decompose (condMat i.props) 6 ≠ .ok B) :
    ∃ d' L r src, d.update i = .numeric d' ∧
      decomposeIslands 6 (sysMat i.props) (condMat i.props) = .failed L r d'.solver.mat ∧
      (d'.solver.env.views = fun _ => rigidView (massMatrix i.props) src) ∧
      (∀ l k, d'.solver.env.ovr l k = false) ∧ d'.solver.env.priv = false ∧
      d'.solver.rebuild = false ∧ massMatrix d'.last = massMatrix i.props ∧
      d'.last = (d.prepared i).last := by
  obtain ⟨p1, p2, p3, p4, p5, p6, p7⟩ := prepared_spec i d h hr
  have hst := buildAndSolve_rigid (stepped (d.prepared i).solver) i.props
    (rigidSource i.props i.angVel i.forces i.torques) p1 hr rfl (by
      intro hrb
      apply p7
      cases hc : (d.prepared i).solver.env.priv with
      | false => rfl
      | true =>
        simp only [stepped, hc, if_true] at hrb
        cases hrb)
  obtain ⟨s', L, r, q1, q2, q3, q4, q5⟩ := hst.2 hn
  have hstep := step_rigid (d.prepared i).solver
  rw [q1] at hstep
  dsimp only at hstep
  refine ⟨{ d.prepared i with solver := s' }, L, r,
    rigidSource i.props i.angVel i.forces i.torques, ?_, q5, ?_, ?_, ?_, q3, p5, rfl⟩
  · unfold Deriv.update
    rw [hr]
    simp only [Bool.false_eq_true, if_false]
    change (match Gunns.step rigidMethods rigidCfg (d.prepared i).solver with
      | .ok s => _ | .numeric s => _ | .nan s => _ | .ub s => _) = _
    rw [hstep]
    rfl
  · show s'.env.views = _
    rw [q2]; exact p1
  · intro l k
    show s'.env.ovr l k = false
    rw [q2]
    show (d.prepared i).solver.env.ovr l k = false
    rw [p2]; exact h.ovr l k
  · show s'.env.priv = false
    rw [q2]; rfl

end Gunns.Dyn
