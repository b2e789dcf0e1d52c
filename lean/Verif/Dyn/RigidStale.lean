import Verif.Dyn.RigidCore

/-!
# The call after a failed decomposition
-/

set_option linter.unusedSectionVars false

namespace Gunns.Dyn

open Gunns.Spec Finset

variable {K : Type _} [Field K] [LinearOrder K] [IsStrictOrderedRing K]

/-- A failed decomposition of the islands leaves the rows and columns of the failed island alone. -/
theorem failed_raw {N : Nat} {C : Mat K} {lab : Nat → Nat}
    (hz : ∀ i j, i < N → j < N → lab i ≠ lab j → C i j = 0) (hC : ∀ i, i < N → 0 < C i i) (m : Nat)
    (hm : m ≤ N) (L r : Nat) (B : Mat K)
    (h : decomposeIslandsTo (islandVectors N lab) C m = .failed L r B) :
    (∀ k, k < N → 0 < B k k) ∧ (∀ i k, i < N → k < i → B k i = B i k ∨ C k i ≠ C i k) ∧
    ∀ q i, q < N → i < N → piv C q ≤ 0 → (i = q ∨ C i q ≠ 0) →
      ∀ j, B i j = C i j ∧ B j i = C j i := by
  induction m with
  | zero => cases h
  | succ m ih =>
    rw [decomposeIslandsTo] at h
    cases hr : decomposeIslandsTo (islandVectors N lab) C m with
    | failed a b c =>
      rw [hr] at h
      obtain ⟨rfl, rfl, rfl⟩ : a = L ∧ b = r ∧ c = B := by
        cases h; exact ⟨rfl, rfl, rfl⟩
      exact ih (by omega) hr
    | divByZero a => rw [hr] at h; cases h
    | ok R =>
      rw [hr] at h
      obtain ⟨s1, s2, s3⟩ := (decomposeIslandsTo_spec hz m).1 R hr
      have hRB : R = B := by
        dsimp only at h
        unfold decomposeIsland at h
        dsimp only at h
        split at h
        · split at h
          · cases hd : decompose (gatherIsland (islandVectors N lab m) R)
              (islandVectors N lab m).length with
            | ok Ai => rw [hd] at h; cases h
            | failed a b => rw [hd] at h; cases h; rfl
            | divByZero a => rw [hd] at h; cases h
          · cases h
        · cases h
      subst hRB
      -- a node of a decomposed island has a positive pivot unless it is the first of it
      have hpiv : ∀ k, k < N → lab k < m → 0 < piv C k := by
        intro k hk hl
        have e := enum_vector N lab (lab k)
        obtain ⟨a, ha, hka⟩ := e.surj k hk rfl
        by_cases h1 : a = 0
        · subst h1
          rw [piv, schur_diag, sum_eq_zero, sub_zero]
          · exact hC k hk
          · intro t ht
            rw [mem_range] at ht
            have hne : lab k ≠ lab t := by
              intro hc
              obtain ⟨b, hb, htb⟩ := e.surj t (by omega) hc.symm
              rcases Nat.eq_zero_or_pos b with h0 | h0
              · rw [h0, hka] at htb; omega
              · have := e.mono 0 b h0 hb
                omega
            rw [pterm_cross hz t k ht hk hne, zero_mul]
        · have := (s1 (lab k) hl (by omega)).2 a (by omega) ha
          dsimp only at this
          rw [hka] at this
          exact this
      refine ⟨?_, ?_, ?_⟩
      · intro k hk
        by_cases hl : lab k < m
        · rw [s2 k k hk hk rfl hl, factorsOf, if_pos rfl]
          exact hpiv k hk hl
        · rw [s3 k k (fun hc => hl hc.2.2.2)]
          exact hC k hk
      · intro i k hi hk
        by_cases hl : lab i = lab k ∧ lab i < m
        · left
          rw [s2 i k hi (by omega) hl.1 hl.2, s2 k i (by omega) hi hl.1.symm (hl.1 ▸ hl.2)]
          unfold factorsOf
          rw [if_neg (by omega), if_neg (by omega), if_neg (by omega), if_pos hk]
        · rw [s3 i k (fun hc => hl hc.2.2), s3 k i (fun hc => hl ⟨hc.2.2.1.symm, hc.2.2.1 ▸ hc.2.2.2⟩)]
          exact em _
      · intro q i hq hi hp hiq j
        have hl : ¬ lab q < m := fun hc => absurd (hpiv q hq hc) (not_lt.mpr hp)
        have hlab : lab i = lab q := by
          rcases hiq with h0 | h0
          · rw [h0]
          · by_contra hc
            exact h0 (hz i q hi hq hc)
        rw [← hlab] at hl
        exact ⟨s3 i j (fun hc => hl hc.2.2.2), s3 j i (fun hc => hl (hc.2.2.1 ▸ hc.2.2.2))⟩

theorem buildAndSolve_stale (s : State Bool K) (adm src : Arr K)
    (hv : s.env.views = fun _ => rigidView adm src) (hb : s.rebuild = false)
    (hd : ∀ k, k < 6 → s.mat k k ≠ 0) :
    ∃ s' x, buildAndSolve rigidCfg s = .ok s' ∧
      solve s.mat (buildSource 6 [rigidView adm src]) s.pot 6 = .ok x ∧
      s'.env = s.env ∧ s'.pot = cleanPot 6 x := by
  have hlinks : s.env.links rigidCfg = [rigidView adm src] := by
    unfold Env.links
    rw [hv]
    rfl
  have hsor : ∀ (w : Vect K) (t : State Bool K), trySor rigidCfg w t = { t with sorLast := -1 } :=
    fun _ _ => rfl
  have hbs : buildSystem rigidCfg s = (false, s) := by
    unfold buildSystem
    rw [if_neg]
    rw [hb]
    simp [rigidCfg]
  obtain ⟨x, hx⟩ := solve_ok s.mat (buildSource 6 [rigidView adm src]) s.pot hd
  unfold buildAndSolve
  dsimp only
  rw [hsor]
  dsimp only
  rw [if_pos (by decide), hlinks, hbs]
  dsimp only
  rw [if_neg (by simp)]
  unfold solveSystem
  simp only [show (rigidCfg : Cfg K).mode = .normal from rfl, show (rigidCfg : Cfg K).size = 6 from rfl]
  rw [hx]
  exact ⟨_, x, rfl, rfl, rfl, rfl⟩

/-- The call after a numerical exception, with the same mass properties: it solves with the matrix that the
failed decomposition left behind. -/
theorem update_stale (i j : DerivInput K) (d d' : Deriv K) (h : Inv d) (hr : i.props.rejected = false)
    (hn : d.update i = .numeric d') (hj : j.props = i.props) :
    ∃ e x L r, d'.update j = .ok e ∧
      decomposeIslands 6 (sysMat i.props) (condMat i.props) = .failed L r d'.solver.mat ∧
      solve d'.solver.mat (buildSource 6 [rigidView (massMatrix i.props)
        (rigidSource i.props j.angVel j.forces j.torques)]) d'.solver.pot 6 = .ok x ∧
      ∀ k, k < 3 → e.acc k = cleanV (x k) ∧ e.angAcc k = cleanV (x (3 + k)) := by
  have hnB : ∀ B, decompose (condMat i.props) 6 ≠ .ok B := by
    intro B hB
    obtain ⟨d'', x, h1, -⟩ := update_ok i d h hr B hB
    rw [h1] at hn
    cases hn
  obtain ⟨d'', L, r, src, h1, h2, h3, h4, h5, h6, h7, h8⟩ := update_numeric i d h hr hnB
  rw [hn] at h1
  cases h1
  have hsame : j.props.same d'.last = true := by
    rw [h8, hj]
    unfold Deriv.prepared Deriv.buildAdmittance
    by_cases hs : i.props.same d.last = false
    · rw [if_pos hs]
      show i.props.same i.props = true
      rw [same_iff]
      simp
    · rw [if_neg hs]
      show i.props.same d.last = true
      simpa using hs
  have hprep : d'.prepared j = d'.buildSource j.props j.angVel j.forces j.torques := by
    unfold Deriv.prepared Deriv.buildAdmittance
    rw [hsame]
    rfl
  have hviews : (d'.prepared j).solver.env.views = fun _ => rigidView (massMatrix i.props)
      (rigidSource j.props j.angVel j.forces j.torques) := by
    rw [hprep]
    show (fun _ => rigidView (d'.solver.env.views 0).adm _) = _
    rw [h3]
    rfl
  have hpos : ∀ k, k < 6 → 0 < d'.solver.mat k k :=
    (failed_raw (Props.condition_cross 6 (sysMat i.props) (sysMat_symm i.props))
      (fun k hk => dblEps_pos.trans_le
        ((massTab_diag i.props hr k hk).trans (condMat_diag i.props hr k hk).1)) 6 le_rfl L r _ h2).1
  obtain ⟨s', x, q1, q2, q3, q4⟩ := buildAndSolve_stale (stepped (d'.prepared j).solver)
    (massMatrix i.props) (rigidSource j.props j.angVel j.forces j.torques) hviews
    (by
      rw [hprep]
      show (if d'.solver.env.priv = true then true else _) = false
      rw [h5]
      exact h6)
    (by
      intro k hk
      rw [hprep]
      exact (hpos k hk).ne')
  obtain ⟨f1, f2, f3, f4, f5, f6⟩ := finished_spec s'
    (by rw [q3, hprep]; exact h4)
    (by rw [q3]; show ((d'.prepared j).solver.env.views 0).ports = 6; rw [hviews]; rfl)
    (by rw [q3]; show ((d'.prepared j).solver.env.views 0).nodeMap = _; rw [hviews]; rfl)
  have hstep := step_rigid (d'.prepared j).solver
  rw [q1] at hstep
  dsimp only at hstep
  refine ⟨{ last := (d'.prepared j).last
            solver := finished s'
            acc := fun k => (finished s').env.linkPot 0 k
            angAcc := fun k => (finished s').env.linkPot 0 (3 + k)
            qd := qdot j.quat j.angVel }, x, L, r, ?_, h2, ?_, ?_⟩
  · unfold Deriv.update
    rw [hj, hr]
    simp only [Bool.false_eq_true, if_false]
    rw [← hj]
    change (match Gunns.step rigidMethods rigidCfg (d'.prepared j).solver with
      | .ok s => _ | .numeric s => _ | .nan s => _ | .ub s => _) = _
    rw [hstep]
    rfl
  · rw [hprep] at q2
    rw [← hj]
    rw [hj] at q2 ⊢
    exact q2
  · intro k hk
    have e : ∀ k, k < 6 → (finished s').env.linkPot 0 k = cleanV (x k) := by
      intro k hk
      rw [f6 k hk, q4, cleanPot_eq, if_pos hk]
    exact ⟨e k (by omega), e (3 + k) (by omega)⟩

end Gunns.Dyn
