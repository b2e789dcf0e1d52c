import Verif.Interop.BusLemmas

/-!
# Endless runs of the two-way fluid bus

That the roles settle when no role is forced, the capacitances stop changing and data keep arriving.
-/

set_option linter.unusedSectionVars false

namespace Gunns.Interop

variable {K : Type _} [Field K] [LinearOrder K] [IsStrictOrderedRing K]

/-- The state before event `t` of an endless run. -/
def Sys.run (s : Sys K) (e : Nat → Event K) : Nat → Sys K
  | 0 => s
  | t + 1 => (e t).run (s.run e t)

theorem inv_run {s : Sys K} {e : Nat → Event K} (hi : Inv s) (he : ∀ t, (e t).Good ∧ (e t).role = .none) (t : Nat) :
    Inv (s.run e t) := by
  induction t with
  | zero => exact hi
  | succ t ih => exact inv_step ih (he t).1 (he t).2

theorem run_other {s : Sys K} {e : Nat → Event K} {t : Nat} {x : Bool} (h : x ≠ (e t).who) :
    (s.run e (t + 1)).side x = (s.run e t).side x := by
  show ((e t).run (s.run e t)).side x = _
  rw [Event.run_side, if_neg h]

theorem run_self {s : Sys K} {e : Nat → Event K} (hi : Inv s) (he : ∀ t, (e t).Good ∧ (e t).role = .none) {t : Nat}
    {x : Bool} (h : x = (e t).who) :
    ∃ d, d ∈ (s.run e t).view x ∧ ((s.run e t).side x).inD.frame ≤ d.frame ∧
      Framed ((s.run e t).side x) d (e t).cap ((s.run e (t + 1)).side x) ∧
      Change ((s.run e t).side x) d (e t).cap ((s.run e (t + 1)).side x) := by
  subst h
  exact Event.spec (inv_run hi he t) (he t).2

theorem mono_of_step {f : Nat → Nat} (h : ∀ t, f t ≤ f (t + 1)) {a b : Nat} (hab : a ≤ b) : f a ≤ f b := by
  induction hab with
  | refl => exact le_refl _
  | step _ ih => exact ih.trans (h _)

theorem frame_mono {s : Sys K} {e : Nat → Event K} (hi : Inv s) (he : ∀ t, (e t).Good ∧ (e t).role = .none) (x : Bool)
    {a b : Nat} (hab : a ≤ b) : ((s.run e a).side x).outD.frame ≤ ((s.run e b).side x).outD.frame := by
  refine mono_of_step (f := fun t => ((s.run e t).side x).outD.frame) (fun t => ?_) hab
  by_cases h : x = (e t).who
  · obtain ⟨d, -, -, hF, -⟩ := run_self hi he h
    show ((s.run e t).side x).outD.frame ≤ ((s.run e (t + 1)).side x).outD.frame
    rw [hF.frame]; omega
  · show ((s.run e t).side x).outD.frame ≤ ((s.run e (t + 1)).side x).outD.frame
    rw [run_other h]

theorem inFrame_mono {s : Sys K} {e : Nat → Event K} (hi : Inv s) (he : ∀ t, (e t).Good ∧ (e t).role = .none) (x : Bool)
    {a b : Nat} (hab : a ≤ b) : ((s.run e a).side x).inD.frame ≤ ((s.run e b).side x).inD.frame := by
  refine mono_of_step (f := fun t => ((s.run e t).side x).inD.frame) (fun t => ?_) hab
  by_cases h : x = (e t).who
  · obtain ⟨d, -, hle, hF, -⟩ := run_self hi he h
    show ((s.run e t).side x).inD.frame ≤ ((s.run e (t + 1)).side x).inD.frame
    rw [hF.inD]; exact hle
  · show ((s.run e t).side x).inD.frame ≤ ((s.run e (t + 1)).side x).inD.frame
    rw [run_other h]

theorem master_run {s : Sys K} {e : Nat → Event K} (hi : Inv s) (he : ∀ t, (e t).Good ∧ (e t).role = .none) (x : Bool)
    (t : Nat) : ((s.run e t).side x).master = (s.side x).master := by
  induction t with
  | zero => rfl
  | succ t ih =>
    by_cases h : x = (e t).who
    · obtain ⟨d, -, -, hF, -⟩ := run_self hi he h
      rw [hF.master, ih]
    · rw [run_other h, ih]

/-- While a side keeps its role, so does the frame of its last flip. -/
theorem phi_const {s : Sys K} {e : Nat → Event K} (hi : Inv s) (he : ∀ t, (e t).Good ∧ (e t).role = .none) {x r : Bool}
    {T : Nat} (h : ∀ t, T ≤ t → ((s.run e t).side x).outD.demand = r) {t : Nat} (ht : T ≤ t) :
    (((s.run e t).side x).outD.frame : Int) - ((s.run e t).side x).since =
      ((s.run e T).side x).outD.frame - ((s.run e T).side x).since := by
  induction t, ht using Nat.le_induction with
  | base => rfl
  | succ t ht ih =>
    by_cases hx : x = (e t).who
    · obtain ⟨d, -, -, hF, hC⟩ := run_self hi he hx
      have r1 := h t ht
      have r2 := h (t + 1) (by omega)
      rw [← ih, hF.frame]
      rcases hC with ⟨h1, h2, -, -⟩ | ⟨w, m, -⟩ | ⟨w, m, -⟩ | ⟨w, m, -⟩
      · rw [h2]; push_cast; omega
      all_goals (rw [r1] at w; rw [r2, w] at m; cases m)
    · rw [run_other hx, ih]

/-- What a side keeps being, the other side comes to see and keeps seeing. -/
theorem sees {s : Sys K} {e : Nat → Event K} (hi : Inv s) (he : ∀ t, (e t).Good ∧ (e t).role = .none) {x r : Bool}
    (hdel : ∀ t, ∃ t', t ≤ t' ∧ ((s.run e t).side x).outD.frame ≤ ((s.run e t').side (!x)).inD.frame)
    {T : Nat} (h : ∀ t, T ≤ t → ((s.run e t).side x).outD.demand = r) :
    ∃ T', T ≤ T' ∧ ∀ t, T' ≤ t → ((s.run e t).side (!x)).inD.demand = r := by
  obtain ⟨T', hT', hf⟩ := hdel T
  refine ⟨T', hT', fun t ht => ?_⟩
  have hI := inv_run hi he t
  have h1 := hI.sent (!x) _ List.mem_cons_self
  rw [Bool.not_not] at h1
  have h2 := h1.2.2.2.2
  rw [h t (hT'.trans ht)] at h2
  apply h2
  rw [phi_const hi he h (hT'.trans ht)]
  have h3 := inFrame_mono hi he (!x) ht
  have h4 := ((inv_run hi he T).since x).1
  have h5 : ((s.run e T).side x).outD.frame ≤ ((s.run e t).side (!x)).inD.frame := hf.trans h3
  have h6 : (((s.run e T).side x).outD.frame : Int) ≤ ((s.run e t).side (!x)).inD.frame := by exact_mod_cast h5
  linarith

/-- A sequence of truth values that keeps the value `v` once it has it. -/
theorem settles {f : Nat → Bool} {v : Bool} {T : Nat} (h : ∀ t, T ≤ t → f t = v → f (t + 1) = v) :
    (∀ t, T ≤ t → f t = !v) ∨ ∃ T', T ≤ T' ∧ ∀ t, T' ≤ t → f t = v := by
  by_cases hex : ∃ T', T ≤ T' ∧ f T' = v
  · right
    obtain ⟨T', hT', hv⟩ := hex
    refine ⟨T', hT', fun t ht => ?_⟩
    induction t, ht using Nat.le_induction with
    | base => exact hv
    | succ t ht ih => exact h t (hT'.trans ht) ih
  · left
    intro t ht
    cases hf : f t <;> cases v
    · exact absurd ⟨t, ht, hf⟩ hex
    · rfl
    · rfl
    · exact absurd ⟨t, ht, hf⟩ hex

/-- What holds of all data sent from some time on comes to hold of all data on the way and received. -/
theorem reaches {s : Sys K} {e : Nat → Event K} (hi : Inv s) (he : ∀ t, (e t).Good ∧ (e t).role = .none) {x : Bool}
    (hstep : ∀ t, ∃ t', t ≤ t' ∧ (e t').who = x)
    (hdel : ∀ t, ∃ t', t ≤ t' ∧ ((s.run e t).side x).outD.frame ≤ ((s.run e t').side (!x)).inD.frame)
    {P : Data K → Prop} {T : Nat} (hP : ∀ t, T ≤ t → (e t).who = x → P ((s.run e (t + 1)).side x).outD) :
    ∃ T', T ≤ T' ∧ ∀ t, T' ≤ t → ∀ d ∈ (s.run e t).view (!x), P d := by
  have hview : ∀ t, T ≤ t → ∀ d ∈ (s.run e t).view (!x), ((s.run e T).side x).outD.frame < d.frame → P d := by
    intro t ht
    induction t, ht using Nat.le_induction with
    | base =>
      intro d hd h
      have := ((inv_run hi he T).sent (!x) d hd).1
      rw [Bool.not_not] at this
      omega
    | succ t ht ih =>
      intro d hd h
      by_cases hx : x = (e t).who
      · have hx' : (s.run e (t + 1)).view (!x) = (s.run e t).view (!x) ++ [((s.run e (t + 1)).side x).outD] := by
          rw [hx]; exact Event.run_view_other _ _
        rw [hx', List.mem_append, List.mem_singleton] at hd
        rcases hd with hd | hd
        · exact ih d hd h
        · rw [hd]; exact hP t ht hx.symm
      · have hx2 : (!x) = (e t).who := by revert hx; cases x <;> cases (e t).who <;> simp
        have hv : ∃ n, (s.run e (t + 1)).view (!x) = ((s.run e t).view (!x)).drop n := by
          rw [hx2]; exact ⟨_, Event.run_view_self (e t) (s.run e t) (he t).2⟩
        obtain ⟨n, hv⟩ := hv
        rw [hv] at hd
        exact ih d ((List.drop_sublist _ _).mem hd) h
  obtain ⟨T1, hT1, hw⟩ := hstep T
  obtain ⟨T2, hT2, hf⟩ := hdel (T1 + 1)
  refine ⟨T2, by omega, fun t ht d hd => ?_⟩
  apply hview t (by omega) d hd
  have h1 : ((s.run e T).side x).outD.frame < ((s.run e (T1 + 1)).side x).outD.frame := by
    have h1 := frame_mono hi he x hT1
    obtain ⟨_, -, -, hF, -⟩ := run_self hi he hw.symm
    rw [hF.frame]; omega
  have h2 := inFrame_mono hi he (!x) ht
  have h3 : ((s.run e t).side (!x)).inD.frame ≤ d.frame := by
    have h4 := (inv_run hi he t).sorted (!x)
    unfold Sys.view at h4 hd
    rw [List.pairwise_cons] at h4
    rcases List.mem_cons.1 hd with h | h
    · rw [h]
    · exact h4.1 _ h
  omega

/-- Capacitances that no longer change reach both sides. -/
theorem caps_reach {s : Sys K} {e : Nat → Event K} (hi : Inv s) (he : ∀ t, (e t).Good ∧ (e t).role = .none) {x : Bool}
    (hstep : ∀ t, ∃ t', t ≤ t' ∧ (e t').who = x)
    (hdel : ∀ t, ∃ t', t ≤ t' ∧ ((s.run e t).side x).outD.frame ≤ ((s.run e t').side (!x)).inD.frame)
    {c : K} {T : Nat} (hc : ∀ t, T ≤ t → (e t).who = x → (e t).cap = c) :
    ∃ T', T ≤ T' ∧ (∀ t, T' ≤ t → ((s.run e t).side x).outD.cap = c) ∧
      ∀ t, T' ≤ t → ∀ d ∈ (s.run e t).view (!x), 1 ≤ d.frame ∧ d.cap = c := by
  obtain ⟨T1, hT1, hw⟩ := hstep T
  have hcap : ∀ t, T1 + 1 ≤ t → ((s.run e t).side x).outD.cap = c := by
    intro t ht
    induction t, ht using Nat.le_induction with
    | base =>
      obtain ⟨_, -, -, hF, -⟩ := run_self hi he hw.symm
      rw [hF.cap]; exact hc T1 hT1 hw
    | succ t ht ih =>
      by_cases hx : x = (e t).who
      · obtain ⟨_, -, -, hF, -⟩ := run_self hi he hx
        rw [hF.cap]; exact hc t (by omega) hx.symm
      · rw [run_other hx, ih]
  obtain ⟨T2, hT2, hv⟩ := reaches hi he hstep hdel (P := fun d => 1 ≤ d.frame ∧ d.cap = c) (T := T1 + 1) (by
    intro t ht hx
    obtain ⟨_, -, -, hF, -⟩ := run_self hi he hx.symm
    rw [hF.cap, hF.frame]
    exact ⟨Nat.le_add_left _ _, hc t (by omega) hx⟩)
  exact ⟨T2, by omega, fun t ht => hcap t (by omega), hv⟩

/-- The roles settle: `a` is the side with the smaller capacitance, or the master if they are equal. -/
theorem roles_settle {s : Sys K} {e : Nat → Event K} (hi : Inv s) (he : ∀ t, (e t).Good ∧ (e t).role = .none)
    (hstep : ∀ x t, ∃ t', t ≤ t' ∧ (e t').who = x)
    (hdel : ∀ x t, ∃ t', t ≤ t' ∧ ((s.run e t).side x).outD.frame ≤ ((s.run e t').side (!x)).inD.frame)
    {a : Bool} {c : Bool → K} {T : Nat} (hc : ∀ t, T ≤ t → (e t).cap = c (e t).who)
    (hless : c a < c (!a) ∨ (c a = c (!a) ∧ (s.side a).master = true ∧ (s.side (!a)).master = false)) :
    ∃ T', ∃ r, (∀ t, T' ≤ t → ((s.run e t).side a).outD.demand = r ∧ ((s.run e t).side (!a)).outD.demand = !r) ∧
      (c a * ratio < c (!a) → r = true) := by
  obtain ⟨Ta, hTa, oa, va⟩ := caps_reach hi he (hstep a) (hdel a) (c := c a) (T := T)
    (fun t ht hw => by rw [hc t ht, hw])
  obtain ⟨Tb, hTb, ob, vb⟩ := caps_reach hi he (hstep (!a)) (hdel (!a)) (c := c (!a)) (T := T)
    (fun t ht hw => by rw [hc t ht, hw])
  rw [Bool.not_not] at vb
  have hb0 : 0 ≤ c (!a) := by
    obtain ⟨t, ht, hw⟩ := hstep (!a) T
    have := (he t).1.cap
    rwa [hc t ht, hw] at this
  have hle : c a ≤ c (!a) := by rcases hless with h | h; exacts [h.le, h.1.le]
  have hnot : ¬ (c (!a) < c a ∨ ((s.side (!a)).master = true ∧ c (!a) = c a)) := by
    rintro (h | ⟨h1, h2⟩)
    · exact absurd hle (not_le.2 h)
    · rcases hless with h | ⟨-, -, h⟩
      · exact absurd h2 (ne_of_gt h)
      · rw [h] at h1; cases h1
  have hyes : c a < c (!a) ∨ ((s.side a).master = true ∧ c a = c (!a)) := by
    rcases hless with h | ⟨h1, h2, -⟩
    · exact Or.inl h
    · exact Or.inr ⟨h2, h1⟩
  -- the side with the larger capacitance stays supply once it is
  have keepB : ∀ t, max Ta Tb ≤ t → ((s.run e t).side (!a)).outD.demand = false →
      ((s.run e (t + 1)).side (!a)).outD.demand = false := by
    intro t ht h0
    have ht1 : Ta ≤ t := le_trans (le_max_left _ _) ht
    have ht2 : Tb ≤ t := le_trans (le_max_right _ _) ht
    by_cases hx : (!a) = (e t).who
    · obtain ⟨d, hd, -, hF, hC⟩ := run_self hi he hx
      have hdc := (va t ht1 d hd).2
      rcases hC with ⟨h1, -⟩ | ⟨w, -⟩ | ⟨w, m, -, -, -, l⟩ | ⟨w, m, -, -, l⟩
      · rw [h1, h0]
      · rw [h0] at w; cases w
      · exfalso
        rw [ob t ht2, hdc, master_run hi he] at l
        exact hnot l
      · exfalso
        have hcc := hc t (hTa.trans ht1)
        rw [← hx] at hcc
        rw [hcc, hdc] at l
        unfold ratio at l
        linarith
    · rw [run_other hx, h0]
  rcases settles (f := fun t => ((s.run e t).side (!a)).outD.demand) keepB with hB | ⟨T1, hT1, hB⟩
  · -- the larger side stays in demand
    obtain ⟨T2, hT2, hsee⟩ := sees hi he (hdel (!a)) hB
    rw [Bool.not_not] at hsee
    have keepA : ∀ t, T2 ≤ t → ((s.run e t).side a).outD.demand = true → ((s.run e (t + 1)).side a).outD.demand = true := by
      intro t ht h0
      by_cases hx : a = (e t).who
      · obtain ⟨d, hd, -, hF, hC⟩ := run_self hi he hx
        rcases hC with ⟨h1, -⟩ | ⟨w, m, -, -, -, l⟩ | ⟨w, m, -⟩ | ⟨w, m, -⟩
        · rw [h1, h0]
        · rw [(inv_run hi he t).last, hsee t ht] at l; cases l
        · exact m
        · exact m
      · rw [run_other hx, h0]
    rcases settles (f := fun t => ((s.run e t).side a).outD.demand) keepA with hA | ⟨T3, hT3, hA⟩
    · refine ⟨T2, false, fun t ht => ⟨hA t ht, hB t (hT2.trans ht)⟩, fun hlt => ?_⟩
      exfalso
      -- data sent by the larger side after it got the flip of the smaller side
      obtain ⟨T3, hT3, hw3⟩ := hstep a T2
      obtain ⟨T4, hT4, hf4⟩ := hdel a (T3 + 1)
      obtain ⟨T5, hT5, hloop⟩ := reaches hi he (hstep (!a)) (hdel (!a)) (T := T4)
        (P := fun d => ((s.run e (T3 + 1)).side a).outD.frame ≤ d.loop) (by
          intro t ht hx
          obtain ⟨d, -, hle, hF, -⟩ := run_self hi he hx.symm
          show _ ≤ ((s.run e (t + 1)).side (!a)).outD.loop
          rw [hF.loop]
          have := inFrame_mono hi he (!a) ht
          omega)
      rw [Bool.not_not] at hloop
      obtain ⟨t, ht, hw⟩ := hstep a (max T5 Tb)
      have ht1 : T5 ≤ t := le_trans (le_max_left _ _) ht
      have ht2 : Tb ≤ t := le_trans (le_max_right _ _) ht
      obtain ⟨d, hd, -, hF, hC⟩ := run_self hi he hw.symm
      have r0 : ((s.run e t).side a).outD.demand = false := hA t (by omega)
      have r1 : ((s.run e (t + 1)).side a).outD.demand = false := hA (t + 1) (by omega)
      rcases hC with ⟨-, -, -, -, n⟩ | ⟨w, -⟩ | ⟨w, m, -⟩ | ⟨w, m, -⟩
      · apply n
        refine ⟨r0, ?_, ?_⟩
        · rw [phi_const hi he hA (t := t) (by omega)]
          have h1 := hloop t ht1 d hd
          obtain ⟨_, -, -, hF3, -⟩ := run_self hi he hw3.symm
          rw [hF3.frame] at h1
          have h2 := frame_mono hi he a hT3
          have h3 := ((inv_run hi he T2).since a).1
          have h4 : (((s.run e T2).side a).outD.frame : Int) + 1 ≤ d.loop := by exact_mod_cast (by omega)
          linarith
        · rw [hc t (hTb.trans ht2), hw, (vb t ht2 d hd).2]; exact hlt
      · rw [r0] at w; cases w
      · rw [r1] at m; cases m
      · rw [r1] at m; cases m
    · exfalso
      obtain ⟨T4, hT4, hsee2⟩ := sees hi he (hdel a) hA
      have hI := (unseen_iff a).1 (inv_run hi he T4).unseen (hA T4 hT4) (hB T4 (by omega))
      rw [hsee T4 (by omega), hsee2 T4 (le_refl _)] at hI
      simp at hI
  · -- the larger side supplies
    obtain ⟨T2, hT2, hsee⟩ := sees hi he (hdel (!a)) hB
    rw [Bool.not_not] at hsee
    have keepA : ∀ t, T2 ≤ t → ((s.run e t).side a).outD.demand = true → ((s.run e (t + 1)).side a).outD.demand = true := by
      intro t ht h0
      by_cases hx : a = (e t).who
      · obtain ⟨d, hd, -, hF, hC⟩ := run_self hi he hx
        rcases hC with ⟨h1, -⟩ | ⟨w, m, -, -, l, -⟩ | ⟨w, m, -⟩ | ⟨w, m, -⟩
        · rw [h1, h0]
        · have := hsee (t + 1) (by omega)
          rw [hF.inD, l] at this; cases this
        · exact m
        · exact m
      · rw [run_other hx, h0]
    rcases settles (f := fun t => ((s.run e t).side a).outD.demand) keepA with hA | ⟨T3, hT3, hA⟩
    · exfalso
      obtain ⟨t, ht, hw⟩ := hstep a (max T2 (max Ta Tb))
      have ht1 : T2 ≤ t := le_trans (le_max_left _ _) ht
      have ht2 : Ta ≤ t := le_trans (le_trans (le_max_left _ _) (le_max_right _ _)) ht
      have ht3 : Tb ≤ t := le_trans (le_trans (le_max_right _ _) (le_max_right _ _)) ht
      obtain ⟨d, hd, -, hF, hC⟩ := run_self hi he hw.symm
      have r0 : ((s.run e t).side a).outD.demand = false := hA t ht1
      have r1 : ((s.run e (t + 1)).side a).outD.demand = false := hA (t + 1) (by omega)
      obtain ⟨d1, d2⟩ := vb t ht3 d hd
      have hdd := hsee (t + 1) (by omega)
      rw [hF.inD] at hdd
      rcases hC with ⟨-, -, -, n, -⟩ | ⟨w, -⟩ | ⟨w, m, -⟩ | ⟨w, m, -⟩
      · apply n
        refine ⟨((inv_run hi he t).sent a d hd).2.2.1 d1, r0, hdd, ?_⟩
        rw [oa t ht2, d2, master_run hi he]
        exact hyes
      · rw [r0] at w; cases w
      · rw [r1] at m; cases m
      · rw [r1] at m; cases m
    · exact ⟨T3, true, fun t ht => ⟨hA t ht, hB t (by omega)⟩, fun _ => rfl⟩

/-! ## Start of a run -/

theorem Sys.after_append (s : Sys K) (es es' : List (Event K)) : s.after (es ++ es') = (s.after es).after es' := by
  unfold Sys.after; rw [List.foldl_append]

theorem Sys.after_concat (s : Sys K) (es : List (Event K)) (e : Event K) : s.after (es ++ [e]) = e.run (s.after es) := by
  rw [Sys.after_append]; rfl

theorem inv_after {s : Sys K} {es : List (Event K)} (hi : Inv s) (he : ∀ e ∈ es, e.Good ∧ e.role = .none) :
    Inv (s.after es) := by
  induction es using List.reverseRecOn with
  | nil => exact hi
  | append_singleton es e ih =>
    rw [Sys.after_concat]
    have h := he e (by simp)
    exact inv_step (ih (fun e' h' => he e' (by simp [h']))) h.1 h.2

/-- The sides when nothing has been received yet. -/
structure Fresh (c : Bool → K) (m : Bool → Bool) (s : Sys K) : Prop where
  cap : ∀ x, (s.side x).outD.frame = 0 ∨ (s.side x).outD.cap = c x
  inD : ∀ x, (s.side x).inD.frame = 0 ∧ (s.side x).inD.cap = 0 ∧ (s.side x).inD.demand = false
  chan : ∀ x, ∀ d ∈ s.chan x, 1 ≤ d.frame ∧ d.cap = c (!x) ∧ d.demand = false
  role : ∀ x, (s.side x).outD.demand = false
  master : ∀ x, (s.side x).master = m x

/-- The sides with capacitances `c` from the start. -/
structure Started (c : Bool → K) (m : Bool → Bool) (s : Sys K) : Prop where
  cap : ∀ x, (s.side x).outD.cap = c x
  view : ∀ x, ∀ d ∈ s.view x, (1 ≤ d.frame ∧ d.cap = c (!x)) ∨ (d.frame = 0 ∧ d.cap = 0)
  master : ∀ x, (s.side x).master = m x
  role : ∀ x, ¬ (c x < c (!x) ∨ (m x = true ∧ c x = c (!x))) →
    (s.side x).outD.demand = false ∧ ∀ d ∈ s.view (!x), d.demand = false
  other : ∀ x, ¬ (c (!x) < c x ∨ (m (!x) = true ∧ c (!x) = c x)) → (c x < c (!x) ∨ (m x = true ∧ c x = c (!x))) →
    ((s.side x).outD.demand = true ↔ 1 ≤ (s.side x).inD.frame)

theorem fresh_init (c : Bool → K) (m : Bool → Bool) (n t : Nat) : Fresh c m (Sys.init m n t) :=
  ⟨fun _ => Or.inl rfl, fun _ => ⟨rfl, rfl, rfl⟩, (fun _ _ h => by cases h), fun _ => rfl, fun _ => rfl⟩

theorem fresh_step {c : Bool → K} {m : Bool → Bool} {s : Sys K} {e : Event K} (hi : Inv s) (h : Fresh c m s)
    (hg : e.Good) (hr : e.role = .none) (hc : e.cap = c e.who) (h0 : e.count = 0) :
    Fresh c m (e.run s) ∧ 1 ≤ ((e.run s).side e.who).outD.frame := by
  obtain ⟨d, -, -, hF, hC⟩ := Event.spec hi hr
  have hrecv : ((s.chan e.who).take e.count).getLast? = none := by rw [h0]; rfl
  have hd : ((e.run s).side e.who).inD = (s.side e.who).inD := by
    have hv := Event.run_view_self e s hr
    rw [h0, Nat.zero_min, List.drop_zero] at hv
    unfold Sys.view at hv
    exact (List.cons.inj hv).1
  have hch : (e.run s).chan e.who = s.chan e.who := by
    have hv := Event.run_view_self e s hr
    rw [h0, Nat.zero_min, List.drop_zero] at hv
    unfold Sys.view at hv
    exact (List.cons.inj hv).2
  have hne : (!e.who) ≠ e.who := by cases e.who <;> simp
  have hy : (e.run s).side (!e.who) = s.side (!e.who) := by rw [Event.run_side, if_neg hne]
  have hchy : (e.run s).chan (!e.who) = s.chan (!e.who) ++ [((e.run s).side e.who).outD] := by
    have hv := Event.run_view_other e s
    unfold Sys.view at hv
    exact (List.cons.inj hv).2
  have two : ∀ z, z = e.who ∨ z = !e.who := by intro z; cases z <;> cases e.who <;> simp
  have hdd : d = (s.side e.who).inD := by rw [← hF.inD, hd]
  obtain ⟨i1, i2, i3⟩ := h.inD e.who
  have hrole : ((e.run s).side e.who).outD.demand = false := by
    rcases hC with ⟨h1, -⟩ | ⟨w, m, -⟩ | ⟨w, m, -, v, -⟩ | ⟨w, m, -, -, l⟩
    · rw [h1]; exact h.role _
    · exact m
    · exfalso
      have := (valid_iff.1 v).1
      rw [hdd] at this
      omega
    · exfalso
      rw [hdd, i2] at l
      have := hg.cap
      unfold ratio at l
      linarith
  refine ⟨⟨?_, ?_, ?_, ?_, ?_⟩, by rw [hF.frame]; omega⟩
  · intro z
    rcases two z with rfl | rfl
    · right; rw [hF.cap, hc]
    · rw [hy]; exact h.cap _
  · intro z
    rcases two z with rfl | rfl
    · rw [hd]; exact h.inD _
    · rw [hy]; exact h.inD _
  · intro z
    rcases two z with rfl | rfl
    · rw [hch]; exact h.chan _
    · rw [hchy]
      intro a ha
      rw [List.mem_append, List.mem_singleton] at ha
      rcases ha with ha | ha
      · exact h.chan _ a ha
      · rw [ha, hF.cap, hF.frame, Bool.not_not]; exact ⟨Nat.le_add_left _ _, hc, hrole⟩
  · intro z
    rcases two z with rfl | rfl
    · exact hrole
    · rw [hy]; exact h.role _
  · intro z
    rcases two z with rfl | rfl
    · rw [hF.master]; exact h.master _
    · rw [hy]; exact h.master _

theorem fresh_after {c : Bool → K} {m : Bool → Bool} {n t : Nat} {es : List (Event K)}
    (he : ∀ e ∈ es, e.Good ∧ e.role = .none ∧ e.cap = c e.who ∧ e.count = 0) :
    Fresh c m ((Sys.init m n t).after es) ∧ ∀ e ∈ es, 1 ≤ (((Sys.init m n t).after es).side e.who).outD.frame := by
  induction es using List.reverseRecOn with
  | nil => exact ⟨fresh_init c m n t, fun _ h => by cases h⟩
  | append_singleton es e ih =>
    obtain ⟨h1, h2⟩ := ih (fun e' h' => he e' (by simp [h']))
    obtain ⟨g1, g2, g3, g4⟩ := he e (by simp)
    have hi : Inv ((Sys.init m n t : Sys K).after es) :=
      inv_after (inv_init m n t) (fun e' h' => ⟨(he e' (by simp [h'])).1, (he e' (by simp [h'])).2.1⟩)
    rw [Sys.after_concat]
    obtain ⟨f1, f2⟩ := fresh_step hi h1 g1 g2 g3 g4
    refine ⟨f1, fun e' h' => ?_⟩
    by_cases hw : e'.who = e.who
    · rw [hw]; exact f2
    · rw [Event.run_side, if_neg hw]
      rw [List.mem_append, List.mem_singleton] at h'
      rcases h' with h' | h'
      · exact h2 e' h'
      · rw [h'] at hw; exact absurd rfl hw

theorem started_of_fresh {c : Bool → K} {m : Bool → Bool} {s : Sys K} (h : Fresh c m s)
    (hf : ∀ x, 1 ≤ (s.side x).outD.frame) : Started c m s := by
  refine ⟨?_, ?_, h.master, ?_, ?_⟩
  · intro x
    rcases h.cap x with h0 | h0
    · have := hf x; omega
    · exact h0
  · intro x d hd
    rcases List.mem_cons.1 hd with hd | hd
    · rw [hd]; exact Or.inr ⟨(h.inD x).1, (h.inD x).2.1⟩
    · exact Or.inl ⟨(h.chan x d hd).1, (h.chan x d hd).2.1⟩
  · intro x _
    refine ⟨h.role x, fun d hd => ?_⟩
    rcases List.mem_cons.1 hd with hd | hd
    · rw [hd]; exact (h.inD _).2.2
    · exact (h.chan _ d hd).2.2
  · intro x _ _
    rw [h.role x, (h.inD x).1]
    constructor
    · intro h; cases h
    · intro h; omega

theorem started_step {c : Bool → K} {m : Bool → Bool} {s : Sys K} {e : Event K} (hi : Inv s) (h : Started c m s)
    (hg : e.Good) (hr : e.role = .none) (hc : e.cap = c e.who) (hc0 : ∀ x, 0 ≤ c x) : Started c m (e.run s) := by
  obtain ⟨d, hd, -, hF, hC⟩ := Event.spec hi hr
  have hne : (!e.who) ≠ e.who := by cases e.who <;> simp
  have hy : (e.run s).side (!e.who) = s.side (!e.who) := by rw [Event.run_side, if_neg hne]
  have vx := Event.run_view_self e s hr
  have vy := Event.run_view_other e s
  have hsub : ((s.view e.who).drop (min e.count (s.chan e.who).length)).Sublist (s.view e.who) := List.drop_sublist _ _
  have two : ∀ z, z = e.who ∨ z = !e.who := by intro z; cases z <;> cases e.who <;> simp
  have hdx := hi.sent e.who d hd
  have dcap : d.valid = true → d.cap = c (!e.who) := by
    intro hv
    rcases h.view e.who d hd with ⟨-, h1⟩ | ⟨h1, -⟩
    · exact h1
    · have := (valid_iff.1 hv).1; omega
  have hrole : ¬ (c e.who < c (!e.who) ∨ (m e.who = true ∧ c e.who = c (!e.who))) →
      ((e.run s).side e.who).outD.demand = false := by
    intro hno
    have hle : c (!e.who) ≤ c e.who := by
      by_contra hlt
      exact hno (Or.inl (not_le.1 hlt))
    obtain ⟨r0, -⟩ := h.role _ hno
    rcases hC with ⟨h1, -⟩ | ⟨w, m, -⟩ | ⟨w, m, -, v, -, l⟩ | ⟨w, m, -, -, l⟩
    · rw [h1]; exact r0
    · exact m
    · exfalso
      rw [dcap v, h.cap, h.master] at l
      exact hno l
    · exfalso
      have h1 := hc0 e.who
      unfold ratio at l
      rw [hc] at l
      rcases h.view e.who d hd with ⟨-, h2⟩ | ⟨-, h2⟩
      · rw [h2] at l; linarith
      · rw [h2] at l; linarith
  refine ⟨?_, ?_, ?_, ?_, ?_⟩
  · intro z
    rcases two z with rfl | rfl
    · rw [hF.cap, hc]
    · rw [hy]; exact h.cap _
  · intro z
    rcases two z with rfl | rfl
    · intro a ha; rw [vx] at ha; exact h.view _ a (hsub.mem ha)
    · intro a ha
      rw [vy, List.mem_append, List.mem_singleton] at ha
      rcases ha with ha | ha
      · exact h.view _ a ha
      · left; rw [ha, hF.cap, hF.frame, hc, Bool.not_not]; exact ⟨Nat.le_add_left _ _, rfl⟩
  · intro z
    rcases two z with rfl | rfl
    · rw [hF.master]; exact h.master _
    · rw [hy]; exact h.master _
  · intro z hno
    rcases two z with rfl | rfl
    · refine ⟨hrole hno, fun a ha => ?_⟩
      rw [vy, List.mem_append, List.mem_singleton] at ha
      rcases ha with ha | ha
      · exact (h.role _ hno).2 a ha
      · rw [ha]; exact hrole hno
    · rw [hy]
      obtain ⟨h1, h2⟩ := h.role _ hno
      refine ⟨h1, fun a ha => ?_⟩
      rw [Bool.not_not] at ha h2
      rw [vx] at ha
      exact h2 a (hsub.mem ha)
  · intro z hno hyes
    rcases two z with rfl | rfl
    · have hdem : d.demand = false := by
        have := (h.role (!e.who) (by rw [Bool.not_not]; exact hno)).2
        rw [Bool.not_not] at this
        exact this d hd
      have old := h.other _ hno hyes
      have hle : (s.side e.who).inD.frame ≤ d.frame := by
        have h1 := hi.sorted e.who
        unfold Sys.view at h1 hd
        rw [List.pairwise_cons] at h1
        rcases List.mem_cons.1 hd with h | h
        · rw [h]
        · exact h1.1 _ h
      rw [hF.inD]
      rcases hC with ⟨h1, -, -, n, -⟩ | ⟨w, m, -, -, o, -⟩ | ⟨w, m, -, v, -, l⟩ | ⟨w, m, -, sn, l⟩
      · rw [h1]
        constructor
        · intro hh; exact (old.1 hh).trans hle
        · intro hh
          by_contra hcon
          rw [Bool.not_eq_true] at hcon
          have hv := hdx.2.2.1 hh
          apply n
          refine ⟨hv, hcon, hdem, ?_⟩
          rw [h.cap, dcap hv, h.master]
          exact hyes
      · rw [hdem] at o; cases o
      · exact ⟨fun _ => (valid_iff.1 v).1, fun _ => m⟩
      · refine ⟨fun _ => ?_, fun _ => m⟩
        by_contra h0
        rcases h.view e.who d hd with ⟨h2, -⟩ | ⟨-, h2⟩
        · exact h0 h2
        · have h1 := hg.cap
          unfold ratio at l
          rw [h2] at l
          linarith
    · rw [hy]; exact h.other _ hno hyes

end Gunns.Interop
