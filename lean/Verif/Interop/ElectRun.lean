import Verif.Interop.Elect
import Verif.Interop.BusRun
import Mathlib.Tactic.Linarith

/-!
# Runs of the two-way electrical bus
-/

set_option linter.unusedSectionVars false

namespace Gunns.Interop

variable {K : Type _} [Field K] [LinearOrder K] [IsStrictOrderedRing K]

theorem eRole_same (v : K) (b : EBus K) : (eRole v b).outD.frame = b.outD.frame ∧ (eRole v b).outD.loop = b.outD.loop ∧
    (eRole v b).inD = b.inD ∧ (eRole v b).latency = b.latency ∧ (eRole v b).forced = b.forced ∧
    ((eRole v b).since = b.since ∨ (eRole v b).since = 0) := by
  unfold eRole
  cases h : b.forced with
  | supply => exact ⟨rfl, rfl, rfl, rfl, rfl, Or.inl rfl⟩
  | demand => exact ⟨rfl, rfl, rfl, rfl, rfl, Or.inl rfl⟩
  | none =>
    simp only
    split_ifs
    · exact ⟨rfl, rfl, rfl, rfl, rfl, Or.inr rfl⟩
    · exact ⟨rfl, rfl, rfl, rfl, h, Or.inl rfl⟩
    · exact ⟨rfl, rfl, rfl, rfl, rfl, Or.inr rfl⟩
    · exact ⟨rfl, rfl, rfl, rfl, h, Or.inl rfl⟩
    · exact ⟨rfl, rfl, rfl, rfl, h, Or.inl rfl⟩

theorem eUpdate_eq (b : EBus K) (c : Call K) : eUpdate b c = { eRole (availV c.supplies) b with
    outD := { (eRole (availV c.supplies) b).outD with
      volt := if (eRole (availV c.supplies) b).outD.demand = true then availV c.supplies else c.volt
      power := if (eRole (availV c.supplies) b).outD.demand = true then c.power else 0 } } := by
  unfold eUpdate
  by_cases h : (eRole (availV c.supplies) b).outD.demand = true
  · simp only [if_pos h]
  · simp only [if_neg h]

theorem eUpdate_same (b : EBus K) (c : Call K) : (eUpdate b c).outD.frame = b.outD.frame ∧
    (eUpdate b c).outD.loop = b.outD.loop ∧ (eUpdate b c).inD = b.inD ∧ (eUpdate b c).latency = b.latency ∧
    (eUpdate b c).forced = b.forced ∧ ((eUpdate b c).since = b.since ∨ (eUpdate b c).since = 0) := by
  rw [eUpdate_eq]; exact eRole_same _ b

theorem updates_same (cs : List (Call K)) (b : EBus K) : (cs.foldl eUpdate b).outD.frame = b.outD.frame ∧
    (cs.foldl eUpdate b).outD.loop = b.outD.loop ∧ (cs.foldl eUpdate b).inD = b.inD ∧
    (cs.foldl eUpdate b).latency = b.latency ∧ (cs.foldl eUpdate b).forced = b.forced ∧
    ((cs.foldl eUpdate b).since = b.since ∨ (cs.foldl eUpdate b).since = 0) := by
  induction cs generalizing b with
  | nil => exact ⟨rfl, rfl, rfl, rfl, rfl, Or.inl rfl⟩
  | cons c cs ih =>
    obtain ⟨h1, h2, h3, h4, h5, h6⟩ := ih (eUpdate b c)
    obtain ⟨g1, g2, g3, g4, g5, g6⟩ := eUpdate_same b c
    refine ⟨h1.trans g1, h2.trans g2, h3.trans g3, h4.trans g4, h5.trans g5, ?_⟩
    rcases h6 with h6 | h6
    · rcases g6 with g6 | g6
      · exact Or.inl (h6.trans g6)
      · exact Or.inr (h6.trans g6)
    · exact Or.inr h6

/-- The side stays in its role, and what it sends. -/
structure Keeps (b b' : EBus K) (cs : List (Call K)) (v : K) : Prop where
  demand : b'.outD.demand = b.outD.demand
  since : b'.since = b.since
  volt : cs ≠ [] → b'.outD.volt = v ∧ b.outD.demand = true ∨ (∃ c ∈ cs, b'.outD.volt = c.volt) ∧ b.outD.demand = false

/-- A supplying side that sees no higher voltage keeps supplying. -/
theorem keep_supply {v : K} {cs : List (Call K)} (hcs : ∀ c ∈ cs, availV c.supplies = v) {b : EBus K}
    (hf : b.forced = .none) (hs : b.outD.demand = false) (hv : b.inD.volt ≤ v) : Keeps b (cs.foldl eUpdate b) cs v := by
  have one : ∀ (c : Call K), availV c.supplies = v → (eUpdate b c).outD.demand = false ∧ (eUpdate b c).since = b.since ∧
      (eUpdate b c).outD.volt = c.volt := by
    intro c hc
    have e : eRole v b = b := by
      unfold eRole
      rw [hf]
      simp only
      rw [if_neg (show ¬ b.outD.demand = true by rw [hs]; simp), if_neg (not_lt.2 hv)]
      exact ite_self _
    rw [eUpdate_eq, hc, e]
    exact ⟨hs, rfl, if_neg (by rw [hs]; simp)⟩
  induction cs generalizing b with
  | nil => exact ⟨rfl, rfl, fun h => absurd rfl h⟩
  | cons c cs ih =>
    obtain ⟨o1, o2, o3⟩ := one c (hcs c (by simp))
    obtain ⟨-, -, g3, -, g5, -⟩ := eUpdate_same b c
    have hcs' : ∀ c ∈ cs, availV c.supplies = v := fun c' h' => hcs c' (by simp [h'])
    have k := ih hcs' (b := eUpdate b c) (g5.trans hf) o1 (by rw [g3]; exact hv) (by
      intro c' hc'
      have hv' : (eUpdate b c).inD.volt ≤ v := by rw [g3]; exact hv
      have e : eRole v (eUpdate b c) = eUpdate b c := by
        unfold eRole
        rw [g5.trans hf]
        simp only
        rw [if_neg (show ¬ (eUpdate b c).outD.demand = true by rw [o1]; simp), if_neg (not_lt.2 hv')]
        exact ite_self _
      rw [eUpdate_eq (eUpdate b c), hc', e]
      exact ⟨o1, rfl, if_neg (by rw [o1]; simp)⟩)
    refine ⟨by rw [List.foldl_cons, k.demand, o1, hs], by rw [List.foldl_cons, k.since, o2], fun _ => ?_⟩
    right
    refine ⟨?_, hs⟩
    by_cases hn : cs = []
    · subst hn
      exact ⟨c, by simp, o3⟩
    · rcases k.volt hn with ⟨-, h⟩ | ⟨⟨c', h1, h2⟩, -⟩
      · rw [o1] at h; cases h
      · exact ⟨c', by simp [h1], h2⟩

/-- A demanding side keeps demanding unless the other demands too and a whole loop has passed. -/
theorem keep_demand {v : K} {cs : List (Call K)} (hcs : ∀ c ∈ cs, availV c.supplies = v) {b : EBus K}
    (hf : b.forced = .none) (hd : b.outD.demand = true) (hw : ¬ (b.inD.demand = true ∧ b.latency < b.since)) :
    Keeps b (cs.foldl eUpdate b) cs v := by
  have one : ∀ (b : EBus K), b.forced = .none → b.outD.demand = true → ¬ (b.inD.demand = true ∧ b.latency < b.since) →
      ∀ c : Call K, availV c.supplies = v → (eUpdate b c).outD.demand = true ∧ (eUpdate b c).since = b.since ∧
      (eUpdate b c).outD.volt = v := by
    intro b hf hd hw c hc
    have e : eRole v b = b := by
      unfold eRole
      rw [hf]
      simp only
      rw [if_pos hd, if_neg hw]
      exact ite_self _
    rw [eUpdate_eq, hc, e]
    exact ⟨hd, rfl, if_pos hd⟩
  induction cs generalizing b with
  | nil => exact ⟨rfl, rfl, fun h => absurd rfl h⟩
  | cons c cs ih =>
    obtain ⟨o1, o2, o3⟩ := one b hf hd hw c (hcs c (by simp))
    obtain ⟨-, -, g3, g4, g5, -⟩ := eUpdate_same b c
    have k := ih (fun c' h' => hcs c' (by simp [h'])) (b := eUpdate b c) (g5.trans hf) o1 (by rw [g3, g4, o2]; exact hw)
    refine ⟨by rw [List.foldl_cons, k.demand, o1, hd], by rw [List.foldl_cons, k.since, o2], fun _ => ?_⟩
    left
    refine ⟨?_, hd⟩
    by_cases hn : cs = []
    · subst hn; exact o3
    · rcases k.volt hn with ⟨h, -⟩ | ⟨-, h⟩
      · exact h
      · rw [o1] at h; cases h

/-- A demanding side with the higher voltage takes over the supply. -/
theorem take_supply {v : K} {cs : List (Call K)} (hcs : ∀ c ∈ cs, availV c.supplies = v) (hne : cs ≠ []) {b : EBus K}
    (hf : b.forced = .none) (hl : 0 < b.inD.loop) (hd : b.outD.demand = true) (hw : b.inD.demand = true ∧ b.latency < b.since)
    (hv : b.inD.volt ≤ v) : (cs.foldl eUpdate b).outD.demand = false := by
  cases cs with
  | nil => exact absurd rfl hne
  | cons c cs =>
    obtain ⟨-, -, g3, -, g5, -⟩ := eUpdate_same b c
    have o1 : (eUpdate b c).outD.demand = false := by
      rw [eUpdate_eq]
      show (eRole _ b).outD.demand = false
      unfold eRole
      rw [hf]
      simp only
      rw [if_pos hl, if_pos hd, if_pos hw]
    have k := keep_supply (cs := cs) (fun c' h' => hcs c' (by simp [h'])) (g5.trans hf) o1 (by rw [g3]; exact hv)
    rw [List.foldl_cons, k.demand, o1]

/-- A supplying side with the lower voltage changes to demand. -/
theorem take_demand {v : K} {cs : List (Call K)} (hcs : ∀ c ∈ cs, availV c.supplies = v) (hne : cs ≠ []) {b : EBus K}
    (hf : b.forced = .none) (hl : 0 < b.inD.loop) (hd : b.outD.demand = false) (hlat : 0 ≤ b.latency)
    (hv : v < b.inD.volt) : (cs.foldl eUpdate b).outD.demand = true ∧ (cs.foldl eUpdate b).outD.volt = v := by
  cases cs with
  | nil => exact absurd rfl hne
  | cons c cs =>
    obtain ⟨-, -, g3, g4, g5, -⟩ := eUpdate_same b c
    have hr : (eRole v b).outD.demand = true ∧ (eRole v b).since = 0 := by
      unfold eRole
      rw [hf]
      simp only
      rw [if_pos hl, if_neg (show ¬ b.outD.demand = true by rw [hd]; simp), if_pos hv]
      exact ⟨rfl, rfl⟩
    have o : (eUpdate b c).outD.demand = true ∧ (eUpdate b c).since = 0 ∧ (eUpdate b c).outD.volt = v := by
      rw [eUpdate_eq, hcs c (by simp)]
      exact ⟨hr.1, hr.2, if_pos hr.1⟩
    obtain ⟨o1, o2, o3⟩ := o
    have k := keep_demand (cs := cs) (fun c' h' => hcs c' (by simp [h'])) (g5.trans hf) o1 (by
      rw [g4, o2]
      rintro ⟨-, h⟩
      omega)
    rw [List.foldl_cons, k.demand, o1]
    refine ⟨rfl, ?_⟩
    by_cases hn : cs = []
    · subst hn; exact o3
    · rcases k.volt hn with ⟨h, -⟩ | ⟨-, h⟩
      · exact h
      · rw [o1] at h; cases h

/-- A forced role is taken. -/
theorem updates_forced {cs : List (Call K)} (hne : cs ≠ []) {b : EBus K} (hf : b.forced ≠ .none) :
    ((cs.foldl eUpdate b).outD.demand = true ↔ b.forced = .demand) := by
  have one : ∀ (b : EBus K) (c : Call K), b.forced ≠ .none → ((eUpdate b c).outD.demand = true ↔ b.forced = .demand) := by
    intro b c hf
    rw [eUpdate_eq]
    show (eRole _ b).outD.demand = true ↔ _
    unfold eRole
    cases h : b.forced with
    | none => exact absurd h hf
    | supply => simp
    | demand => simp
  induction cs generalizing b with
  | nil => exact absurd rfl hne
  | cons c cs ih =>
    obtain ⟨-, -, -, -, g5, -⟩ := eUpdate_same b c
    rw [List.foldl_cons]
    by_cases hn : cs = []
    · subst hn; exact one b c hf
    · rw [← g5]; exact ih hn (b := eUpdate b c) (by rw [g5]; exact hf)

/-! ## The two sides -/

/-- The data a side has and the data on the way to it. -/
def ESys.view (s : ESys K) (x : Bool) : List (EData K) := (s.side x).inD :: s.chan x

/-- What holds of the sides and the data on the way, forced or not. -/
structure EInv (s : ESys K) : Prop where
  since : ∀ x, 0 ≤ (s.side x).since ∧ (s.side x).since ≤ (s.side x).outD.frame
  sorted : ∀ x, (s.view x).Pairwise (fun c d => c.frame < d.frame)
  sent : ∀ x, ∀ d ∈ s.view x, d.frame ≤ (s.side (!x)).outD.frame ∧ d.loop ≤ (s.side (!x)).inD.frame

theorem e_received_view (i : EData K) (q : List (EData K)) (k : Nat) :
    ((q.take k).getLast?).getD i :: q.drop k = (i :: q).drop (min k q.length) := by
  induction q generalizing i k with
  | nil => simp
  | cons a q ih =>
    cases k with
    | zero => simp
    | succ k =>
      have := ih a k
      simp only [List.take_succ_cons, List.drop_succ_cons, List.length_cons]
      rw [Nat.succ_min_succ, List.drop_succ_cons, ← this]
      congr 1
      cases h : q.take k with
      | nil => simp
      | cons b l => simp [List.getLast?_cons]

theorem EEvent.run_side (e : EEvent K) (s : ESys K) (x : Bool) :
    (e.run s).side x = if x = e.who then
      eFrame ((s.chan e.who).take e.count).getLast? e.role e.calls (s.side e.who) else s.side x := rfl

theorem eFrame_same (recv : Option (EData K)) (role : Role) (cs : List (Call K)) (b : EBus K) :
    (eFrame recv role cs b).outD.frame = b.outD.frame + 1 ∧ (eFrame recv role cs b).outD.loop = (recv.getD b.inD).frame ∧
    (eFrame recv role cs b).inD = recv.getD b.inD ∧
    ((eFrame recv role cs b).since = b.since + 1 ∨ (eFrame recv role cs b).since = 0) := by
  obtain ⟨h1, h2, h3, -, -, h6⟩ := updates_same cs (eInputs { b with
    forced := role
    inD := recv.getD b.inD })
  exact ⟨h1, h2, h3, h6⟩

theorem EEvent.run_view_self (e : EEvent K) (s : ESys K) :
    (e.run s).view e.who = (s.view e.who).drop (min e.count (s.chan e.who).length) := by
  have h : ((e.run s).side e.who).inD = (((s.chan e.who).take e.count).getLast?).getD (s.side e.who).inD := by
    rw [EEvent.run_side, if_pos rfl]
    exact (eFrame_same _ _ _ _).2.2.1
  have h2 : (e.run s).chan e.who = (s.chan e.who).drop e.count := by
    show (if e.who = e.who then _ else _) = _
    rw [if_pos rfl]
  unfold ESys.view
  rw [h, h2]
  exact e_received_view _ _ _

theorem EEvent.run_view_other (e : EEvent K) (s : ESys K) :
    (e.run s).view (!e.who) = s.view (!e.who) ++ [((e.run s).side e.who).outD] := by
  have hne : (!e.who) ≠ e.who := by cases e.who <;> simp
  have h : (e.run s).side (!e.who) = s.side (!e.who) := by rw [EEvent.run_side, if_neg hne]
  have h2 : (e.run s).chan (!e.who) = s.chan (!e.who) ++ [((e.run s).side e.who).outD] := by
    rw [EEvent.run_side, if_pos rfl]
    show (if (!e.who) = e.who then _ else _) = _
    rw [if_neg hne]
  unfold ESys.view
  rw [h, h2]; rfl

/-- The frame of the side `e.who`: the data it has and what it starts its calls with. -/
theorem EEvent.spec {e : EEvent K} {s : ESys K} (hi : EInv s) :
    ∃ d, d ∈ s.view e.who ∧ (s.side e.who).inD.frame ≤ d.frame ∧ d.loop ≤ (s.side e.who).outD.frame ∧
      (e.run s).side e.who = e.calls.foldl eUpdate (eInputs { s.side e.who with
        forced := e.role
        inD := d }) ∧
      ((e.run s).side e.who).outD.frame = (s.side e.who).outD.frame + 1 ∧ ((e.run s).side e.who).outD.loop = d.frame ∧
      ((e.run s).side e.who).inD = d ∧
      (((e.run s).side e.who).since = (s.side e.who).since + 1 ∨ ((e.run s).side e.who).since = 0) := by
  have hsub : ((s.view e.who).drop (min e.count (s.chan e.who).length)).Sublist (s.view e.who) := List.drop_sublist _ _
  set d := (((s.chan e.who).take e.count).getLast?).getD (s.side e.who).inD with hd0
  have hd : d ∈ s.view e.who := by
    apply hsub.mem
    have := e_received_view (s.side e.who).inD (s.chan e.who) e.count
    unfold ESys.view
    rw [← this]
    exact List.mem_cons_self
  have hle : (s.side e.who).inD.frame ≤ d.frame := by
    have h1 := hi.sorted e.who
    unfold ESys.view at h1 hd
    rw [List.pairwise_cons] at h1
    rcases List.mem_cons.1 hd with h | h
    · rw [h]
    · exact (h1.1 _ h).le
  have hloop : d.loop ≤ (s.side e.who).outD.frame := by
    have h1 := (hi.sent e.who _ hd).2
    have h2 := (hi.sent (!e.who) (s.side (!e.who)).inD List.mem_cons_self).1
    rw [Bool.not_not] at h2
    exact h1.trans h2
  have heq : (e.run s).side e.who = eFrame ((s.chan e.who).take e.count).getLast? e.role e.calls (s.side e.who) := by
    rw [EEvent.run_side, if_pos rfl]
  obtain ⟨f1, f2, f3, f4⟩ := eFrame_same ((s.chan e.who).take e.count).getLast? e.role e.calls (s.side e.who)
  rw [← heq] at f1 f2 f3 f4
  exact ⟨d, hd, hle, hloop, heq, f1, f2, f3, f4⟩

theorem einv_step {e : EEvent K} {s : ESys K} (hi : EInv s) : EInv (e.run s) := by
  obtain ⟨d, hd, hle, hloop, -, f1, f2, f3, f4⟩ := EEvent.spec (e := e) hi
  have hne : (!e.who) ≠ e.who := by cases e.who <;> simp
  have hy : (e.run s).side (!e.who) = s.side (!e.who) := by rw [EEvent.run_side, if_neg hne]
  have vx := EEvent.run_view_self e s
  have vy := EEvent.run_view_other e s
  have hsub : ((s.view e.who).drop (min e.count (s.chan e.who).length)).Sublist (s.view e.who) := List.drop_sublist _ _
  have two : ∀ z, z = e.who ∨ z = !e.who := by intro z; cases z <;> cases e.who <;> simp
  obtain ⟨s0, s1⟩ := hi.since e.who
  refine ⟨?_, ?_, ?_⟩
  · intro z
    rcases two z with rfl | rfl
    · rw [f1]
      rcases f4 with h | h <;> rw [h] <;> constructor <;> push_cast <;> omega
    · rw [hy]; exact hi.since _
  · intro z
    rcases two z with rfl | rfl
    · rw [vx]; exact (hi.sorted e.who).sublist hsub
    · rw [vy, List.pairwise_append]
      refine ⟨hi.sorted _, List.pairwise_singleton _ _, ?_⟩
      intro a ha b hb
      rw [List.mem_singleton] at hb
      have := (hi.sent (!e.who) a ha).1
      rw [Bool.not_not] at this
      rw [hb, f1]; omega
  · intro z
    rcases two z with rfl | rfl
    · intro a ha
      rw [vx] at ha
      rw [hy]; exact hi.sent e.who a (hsub.mem ha)
    · intro a ha
      rw [Bool.not_not]
      rw [vy, List.mem_append, List.mem_singleton] at ha
      rcases ha with ha | ha
      · obtain ⟨a1, a2⟩ := hi.sent (!e.who) a ha
        rw [Bool.not_not] at a1 a2
        exact ⟨by rw [f1]; omega, by rw [f3]; omega⟩
      · rw [ha, f2, f3]; exact ⟨le_refl _, le_refl _⟩

theorem einv_init (p : Bool → Bool) (v : Bool → K) : EInv (ESys.init p v) := by
  refine ⟨fun x => ⟨le_refl _, le_refl _⟩, fun x => List.pairwise_singleton _ _, ?_⟩
  intro x d hd
  have hd' : d ∈ [(EBus.init (p x) (v x)).inD] := hd
  rw [List.mem_singleton] at hd'
  rw [hd']
  exact ⟨le_refl _, le_refl _⟩

theorem einv_run {s : ESys K} {e : Nat → EEvent K} (hi : EInv s) (t : Nat) : EInv (s.run e t) := by
  induction t with
  | zero => exact hi
  | succ t ih => exact einv_step ih

theorem erun_other {s : ESys K} {e : Nat → EEvent K} {t : Nat} {x : Bool} (h : x ≠ (e t).who) :
    (s.run e (t + 1)).side x = (s.run e t).side x := by
  show ((e t).run (s.run e t)).side x = _
  rw [EEvent.run_side, if_neg h]

theorem erun_self {s : ESys K} {e : Nat → EEvent K} (hi : EInv s) {t : Nat} {x : Bool} (h : x = (e t).who) :
    ∃ d, d ∈ (s.run e t).view x ∧ ((s.run e t).side x).inD.frame ≤ d.frame ∧ d.loop ≤ ((s.run e t).side x).outD.frame ∧
      (s.run e (t + 1)).side x = (e t).calls.foldl eUpdate (eInputs { (s.run e t).side x with
        forced := (e t).role
        inD := d }) ∧
      ((s.run e (t + 1)).side x).outD.frame = ((s.run e t).side x).outD.frame + 1 ∧
      ((s.run e (t + 1)).side x).outD.loop = d.frame ∧ ((s.run e (t + 1)).side x).inD = d ∧
      (((s.run e (t + 1)).side x).since = ((s.run e t).side x).since + 1 ∨ ((s.run e (t + 1)).side x).since = 0) := by
  subst h
  exact EEvent.spec (einv_run hi t)

theorem eframe_mono {s : ESys K} {e : Nat → EEvent K} (hi : EInv s) (x : Bool) {a b : Nat} (hab : a ≤ b) :
    ((s.run e a).side x).outD.frame ≤ ((s.run e b).side x).outD.frame := by
  refine mono_of_step (f := fun t => ((s.run e t).side x).outD.frame) (fun t => ?_) hab
  show ((s.run e t).side x).outD.frame ≤ ((s.run e (t + 1)).side x).outD.frame
  by_cases h : x = (e t).who
  · obtain ⟨d, -, -, -, -, f1, -⟩ := erun_self hi h
    rw [f1]; omega
  · rw [erun_other h]

theorem einFrame_mono {s : ESys K} {e : Nat → EEvent K} (hi : EInv s) (x : Bool) {a b : Nat} (hab : a ≤ b) :
    ((s.run e a).side x).inD.frame ≤ ((s.run e b).side x).inD.frame := by
  refine mono_of_step (f := fun t => ((s.run e t).side x).inD.frame) (fun t => ?_) hab
  show ((s.run e t).side x).inD.frame ≤ ((s.run e (t + 1)).side x).inD.frame
  by_cases h : x = (e t).who
  · obtain ⟨d, -, hle, -, -, -, -, f3, -⟩ := erun_self hi h
    rw [f3]; exact hle
  · rw [erun_other h]

/-- What holds of all data sent from some time on comes to hold of all data on the way and received. -/
theorem ereaches {s : ESys K} {e : Nat → EEvent K} (hi : EInv s) {x : Bool}
    (hstep : ∀ t, ∃ t', t ≤ t' ∧ (e t').who = x)
    (hdel : ∀ t, ∃ t', t ≤ t' ∧ ((s.run e t).side x).outD.frame ≤ ((s.run e t').side (!x)).inD.frame)
    {P : EData K → Prop} {T : Nat} (hP : ∀ t, T ≤ t → (e t).who = x → P ((s.run e (t + 1)).side x).outD) :
    ∃ T', T ≤ T' ∧ ∀ t, T' ≤ t → ∀ d ∈ (s.run e t).view (!x), P d := by
  have hview : ∀ t, T ≤ t → ∀ d ∈ (s.run e t).view (!x), ((s.run e T).side x).outD.frame < d.frame → P d := by
    intro t ht
    induction t, ht using Nat.le_induction with
    | base =>
      intro d hd h
      have := ((einv_run hi T).sent (!x) d hd).1
      rw [Bool.not_not] at this
      omega
    | succ t ht ih =>
      intro d hd h
      by_cases hx : x = (e t).who
      · have hx' : (s.run e (t + 1)).view (!x) = (s.run e t).view (!x) ++ [((s.run e (t + 1)).side x).outD] := by
          rw [hx]; exact EEvent.run_view_other _ _
        rw [hx', List.mem_append, List.mem_singleton] at hd
        rcases hd with hd | hd
        · exact ih d hd h
        · rw [hd]; exact hP t ht hx.symm
      · have hx2 : (!x) = (e t).who := by revert hx; cases x <;> cases (e t).who <;> simp
        have hv : ∃ n, (s.run e (t + 1)).view (!x) = ((s.run e t).view (!x)).drop n := by
          rw [hx2]; exact ⟨_, EEvent.run_view_self (e t) (s.run e t)⟩
        obtain ⟨n, hv⟩ := hv
        rw [hv] at hd
        exact ih d ((List.drop_sublist _ _).mem hd) h
  obtain ⟨T1, hT1, hw⟩ := hstep T
  obtain ⟨T2, hT2, hf⟩ := hdel (T1 + 1)
  refine ⟨T2, by omega, fun t ht d hd => ?_⟩
  apply hview t (by omega) d hd
  have h1 : ((s.run e T).side x).outD.frame < ((s.run e (T1 + 1)).side x).outD.frame := by
    have h1 := eframe_mono (e := e) hi x hT1
    obtain ⟨_, -, -, -, -, f1, -⟩ := erun_self hi hw.symm
    rw [f1]; omega
  have h2 := einFrame_mono (e := e) hi (!x) ht
  have h3 : ((s.run e t).side (!x)).inD.frame ≤ d.frame := by
    have h4 := (einv_run (e := e) hi t).sorted (!x)
    unfold ESys.view at h4 hd
    rw [List.pairwise_cons] at h4
    rcases List.mem_cons.1 hd with h | h
    · rw [h]
    · exact (h4.1 _ h).le
  omega

/-- If nothing is lost then each item sent is received. -/
theorem ereceived {s : ESys K} {e : Nat → EEvent K} (hi : EInv s) {x : Bool} (hone : ∀ t, (e t).count ≤ 1)
    (hdel : ∀ t, ∃ t', t ≤ t' ∧ ((s.run e t).side x).outD.frame ≤ ((s.run e t').side (!x)).inD.frame)
    {t : Nat} (hx : (e t).who = x) :
    ∃ u, t ≤ u ∧ (e u).who = (!x) ∧ ((s.run e (u + 1)).side (!x)).inD = ((s.run e (t + 1)).side x).outD := by
  set d := ((s.run e (t + 1)).side x).outD with hd
  have h0 : d ∈ (s.run e (t + 1)).chan (!x) := by
    have h1 : (s.run e (t + 1)).view (!x) = (s.run e t).view (!x) ++ [d] := by
      rw [hd, ← hx]; exact EEvent.run_view_other _ _
    unfold ESys.view at h1
    have h2 := (List.cons.inj h1).2
    rw [h2]; simp
  by_contra hno
  push Not at hno
  have stay : ∀ u, t + 1 ≤ u → d ∈ (s.run e u).chan (!x) := by
    intro u hu
    induction u, hu using Nat.le_induction with
    | base => exact h0
    | succ u hu ih =>
      by_cases hw : (e u).who = (!x)
      · have h3 : (s.run e (u + 1)).view (!x) = ((s.run e u).view (!x)).drop (min (e u).count ((s.run e u).chan (!x)).length) := by
          rw [← hw]; exact EEvent.run_view_self _ _
        have h4 : d ∈ (s.run e (u + 1)).view (!x) := by
          rw [h3]
          have h5 : min (e u).count ((s.run e u).chan (!x)).length ≤ 1 := le_trans (min_le_left _ _) (hone u)
          unfold ESys.view
          rcases Nat.le_one_iff_eq_zero_or_eq_one.1 h5 with h6 | h6 <;> rw [h6]
          · simp [ih]
          · simpa using ih
        rcases List.mem_cons.1 h4 with h5 | h5
        · exact absurd h5.symm (hno u (by omega) hw)
        · exact h5
      · have hw' : x = (e u).who := by revert hw; cases x <;> cases (e u).who <;> simp
        have h3 : (s.run e (u + 1)).view (!x) = (s.run e u).view (!x) ++ [((s.run e (u + 1)).side x).outD] := by
          rw [hw']; exact EEvent.run_view_other _ _
        unfold ESys.view at h3
        have h4 := (List.cons.inj h3).2
        rw [h4]
        exact List.mem_append_left _ ih
  obtain ⟨u, hu, hf⟩ := hdel (t + 1)
  have h1 := stay u hu
  have h2 := (einv_run (e := e) hi u).sorted (!x)
  unfold ESys.view at h2
  rw [List.pairwise_cons] at h2
  have h3 := h2.1 d h1
  rw [← hd] at hf
  omega

/-- The roles settle: side `a` has the lower available voltage `va`, the other `vb`. -/
theorem eroles_settle {s : ESys K} {e : Nat → EEvent K} (hi : EInv s) {a : Bool} {va vb : K} {T : Nat} (hab : va < vb)
    (hstep : ∀ x t, ∃ t', t ≤ t' ∧ (e t').who = x)
    (hdel : ∀ x t, ∃ t', t ≤ t' ∧ ((s.run e t).side x).outD.frame ≤ ((s.run e t').side (!x)).inD.frame)
    (hone : ∀ t, (e t).count ≤ 1) (hrole : ∀ t, T ≤ t → (e t).role = .none) (hcalls : ∀ t, T ≤ t → (e t).calls ≠ [])
    (hva : ∀ t, T ≤ t → (e t).who = a → ∀ c ∈ (e t).calls, availV c.supplies = va ∧ c.volt ≤ vb)
    (hvb : ∀ t, T ≤ t → (e t).who = (!a) → ∀ c ∈ (e t).calls, availV c.supplies = vb)
    (hreg : ∀ t, T ≤ t → (e t).who = (!a) → ((s.run e t).side (!a)).outD.demand = false → ∀ c ∈ (e t).calls, va < c.volt) :
    ∃ T', ∀ t, T' ≤ t → ((s.run e t).side a).outD.demand = true ∧ ((s.run e t).side (!a)).outD.demand = false := by
  have hfirst : ∀ (t : Nat) (x : Bool) (d : EData K), T ≤ t → ∃ b : EBus K, b = eInputs { (s.run e t).side x with
        forced := (e t).role
        inD := d } ∧ b.forced = .none ∧ b.inD = d ∧ b.outD.demand = ((s.run e t).side x).outD.demand ∧
        b.since = ((s.run e t).side x).since + 1 ∧ b.latency = (((s.run e t).side x).outD.frame + 1 : Int) - d.loop := by
    intro t x d ht
    exact ⟨_, rfl, hrole t ht, rfl, rfl, rfl, rfl⟩
  -- voltages that reach the other side
  have reachB : ∃ T1, T ≤ T1 ∧ ∀ t, T1 ≤ t → ∀ d ∈ (s.run e t).view (!a), d.volt ≤ vb := by
    refine ereaches hi (hstep a) (hdel a) (P := fun d => d.volt ≤ vb) (T := T) ?_
    intro t ht hx
    obtain ⟨d, -, -, -, he, -⟩ := erun_self hi hx.symm
    show ((s.run e (t + 1)).side a).outD.volt ≤ vb
    rw [he]
    have hall := hva t ht hx
    have hne := hcalls t ht
    generalize eInputs { (s.run e t).side a with
        forced := (e t).role
        inD := d } = b
    obtain ⟨cs, c, hcs⟩ : ∃ cs c, (e t).calls = cs ++ [c] := ⟨_, _, (List.dropLast_append_getLast hne).symm⟩
    rw [hcs] at hall ⊢
    rw [List.foldl_append]
    show (eUpdate _ c).outD.volt ≤ vb
    rw [eUpdate_eq]
    have hc := hall c (by simp)
    show (if _ then availV c.supplies else c.volt) ≤ vb
    split_ifs
    · rw [hc.1]; exact hab.le
    · exact hc.2
  -- loops become positive
  have reachL : ∀ x, ∃ T1, T ≤ T1 ∧ ∀ t, T1 ≤ t → ∀ d ∈ (s.run e t).view x, 0 < d.loop := by
    intro x
    obtain ⟨T1, hT1, hw⟩ := hstep x T
    obtain ⟨T2, hT2, hf⟩ := hdel x (T1 + 1)
    have := ereaches hi (hstep (!x)) (hdel (!x)) (P := fun d => 0 < d.loop) (T := T2) (by
      intro t ht hx
      obtain ⟨d, -, hle, -, -, -, f2, -⟩ := erun_self hi hx.symm
      show 0 < ((s.run e (t + 1)).side (!x)).outD.loop
      rw [f2]
      have h1 := einFrame_mono (e := e) hi (!x) ht
      obtain ⟨_, -, -, -, -, f1, -⟩ := erun_self hi hw.symm
      rw [f1] at hf
      omega)
    rw [Bool.not_not] at this
    obtain ⟨T3, h1, h2⟩ := this
    exact ⟨T3, by omega, h2⟩
  obtain ⟨T1, hT1, vB⟩ := reachB
  obtain ⟨T2, hT2, lA⟩ := reachL a
  obtain ⟨T3, hT3, lB⟩ := reachL (!a)
  -- the side with the higher voltage keeps supplying
  have keepB : ∀ t, T1 ≤ t → ((s.run e t).side (!a)).outD.demand = false →
      ((s.run e (t + 1)).side (!a)).outD.demand = false := by
    intro t ht h0
    by_cases hx : (!a) = (e t).who
    · obtain ⟨d, hd, -, -, he, -⟩ := erun_self hi hx
      obtain ⟨b, hb, b1, b2, b3, -⟩ := hfirst t (!a) d (hT1.trans ht)
      rw [he, ← hb]
      have k := keep_supply (hvb t (hT1.trans ht) hx.symm) b1 (by rw [b3, h0]) (by rw [b2]; exact vB t ht d hd)
      rw [k.demand, b3, h0]
    · rw [erun_other hx, h0]
  rcases settles (f := fun t => ((s.run e t).side (!a)).outD.demand) keepB with hB | ⟨T4, hT4, hB⟩
  · -- it cannot stay in demand
    exfalso
    have hB' : ∀ t, T1 ≤ t → ((s.run e t).side (!a)).outD.demand = true := hB
    have reachA : ∃ T5, T1 ≤ T5 ∧ ∀ t, T5 ≤ t → ∀ d ∈ (s.run e t).view a, d.volt = vb := by
      have := ereaches hi (hstep (!a)) (hdel (!a)) (P := fun d => d.volt = vb) (T := T1) (by
        intro t ht hx
        obtain ⟨d, -, -, -, he, -⟩ := erun_self hi hx.symm
        have hdem := hB' (t + 1) (by omega)
        show ((s.run e (t + 1)).side (!a)).outD.volt = vb
        rw [he] at hdem ⊢
        have hall := hvb t (hT1.trans ht) hx
        have hne := hcalls t (hT1.trans ht)
        generalize eInputs { (s.run e t).side (!a) with
          forced := (e t).role
          inD := d } = b at hdem ⊢
        obtain ⟨cs, c, hcs⟩ : ∃ cs c, (e t).calls = cs ++ [c] := ⟨_, _, (List.dropLast_append_getLast hne).symm⟩
        rw [hcs] at hall hdem ⊢
        rw [List.foldl_append] at hdem ⊢
        change (eUpdate _ c).outD.demand = true at hdem
        show (eUpdate _ c).outD.volt = vb
        rw [eUpdate_eq] at hdem ⊢
        have hc := hall c (by simp)
        show (if _ then availV c.supplies else c.volt) = vb
        rw [if_pos (show (eRole (availV c.supplies) (List.foldl eUpdate b cs)).outD.demand = true from hdem), hc])
      rw [Bool.not_not] at this
      exact this
    obtain ⟨T5, hT5, vA⟩ := reachA
    -- the frame of the last flip of the side in demand
    have hphi : ∀ t, max T1 T3 ≤ t → (((s.run e t).side (!a)).outD.frame : Int) - ((s.run e t).side (!a)).since ≤
        ((s.run e (max T1 T3)).side (!a)).outD.frame := by
      intro t ht
      induction t, ht using Nat.le_induction with
      | base =>
        have := ((einv_run (e := e) hi (max T1 T3)).since (!a)).1
        omega
      | succ t ht ih =>
        by_cases hx : (!a) = (e t).who
        · have ht1 : T1 ≤ t := le_trans (le_max_left _ _) ht
          have ht3 : T3 ≤ t := le_trans (le_max_right _ _) ht
          obtain ⟨d, hd, -, -, he, f1, -, -, -⟩ := erun_self hi hx
          obtain ⟨b, hb, b1, b2, b3, b4, -⟩ := hfirst t (!a) d (hT1.trans ht1)
          have hall := hvb t (hT1.trans ht1) hx.symm
          rw [← hb] at he
          have hdem : b.outD.demand = true := by rw [b3]; exact hB' t ht1
          by_cases hw : b.inD.demand = true ∧ b.latency < b.since
          · have := take_supply hall (hcalls t (hT1.trans ht1)) b1 (by rw [b2]; exact lB t ht3 d hd) hdem hw
              (by rw [b2]; exact vB t ht1 d hd)
            rw [← he, hB' (t + 1) (by omega)] at this
            cases this
          · have k := keep_demand hall b1 hdem hw
            have hs := k.since
            rw [← he, b4] at hs
            rw [f1, hs]
            push_cast
            linarith
        · rw [erun_other hx]; exact ih
    -- data that show a whole loop
    obtain ⟨T6, hT6, hw6⟩ := hstep (!a) (max T1 T3)
    obtain ⟨T7, hT7, hf7⟩ := hdel (!a) (T6 + 1)
    have reachLoop := ereaches hi (hstep a) (hdel a) (T := T7)
      (P := fun d => ((s.run e (T6 + 1)).side (!a)).outD.frame ≤ d.loop) (by
        intro t ht hx
        obtain ⟨d, -, hle, -, -, -, f2, -⟩ := erun_self hi hx.symm
        show _ ≤ ((s.run e (t + 1)).side a).outD.loop
        rw [f2]
        have := einFrame_mono (e := e) hi a ht
        rw [Bool.not_not] at hf7
        omega)
    obtain ⟨T8, hT8, hloop⟩ := reachLoop
    -- the other side demands at some later frame
    have hdemands : ∀ T0, ∃ t, T0 ≤ t ∧ (e t).who = a ∧ ((s.run e (t + 1)).side a).outD.demand = true := by
      intro T0
      obtain ⟨t, ht, hx⟩ := hstep a (max T0 (max T5 T2))
      have h0 : T0 ≤ t := le_trans (le_max_left _ _) ht
      have h5 : T5 ≤ t := le_trans (le_trans (le_max_left _ _) (le_max_right _ _)) ht
      have h2 : T2 ≤ t := le_trans (le_trans (le_max_right _ _) (le_max_right _ _)) ht
      by_cases hd1 : ((s.run e (t + 1)).side a).outD.demand = true
      · exact ⟨t, h0, hx, hd1⟩
      · rw [Bool.not_eq_true] at hd1
        have wait : ∀ u, t + 1 ≤ u → (∀ k, t + 1 ≤ k → k < u → (e k).who ≠ a) →
            ((s.run e u).side a).outD.demand = false := by
          intro u hu
          induction u, hu using Nat.le_induction with
          | base => intro _; exact hd1
          | succ u hu ih =>
            intro hk
            rw [erun_other (fun h => hk u hu (Nat.lt_succ_self u) h.symm)]
            exact ih (fun k h1 h2 => hk k h1 (by omega))
        -- the next frame of the side
        have hex : ∃ u, t + 1 ≤ u ∧ (e u).who = a := hstep a (t + 1)
        classical
        have hu := Nat.find_spec hex
        have hmin : ∀ k, t + 1 ≤ k → k < Nat.find hex → (e k).who ≠ a := fun k h1 h2 h3 => Nat.find_min hex h2 ⟨h1, h3⟩
        obtain ⟨hu1, hu2⟩ := hu
        have hdu := wait _ hu1 hmin
        generalize Nat.find hex = u at hu1 hu2 hdu
        refine ⟨u, by omega, hu2, ?_⟩
        obtain ⟨d, hd, -, hl, he, -⟩ := erun_self hi hu2.symm
        have hTu : T ≤ u := by omega
        obtain ⟨b, hb, b1, b2, b3, -, b5⟩ := hfirst u a d hTu
        rw [he, ← hb]
        refine (take_demand (v := va) (fun c hc => (hva u hTu hu2 c hc).1) (hcalls u hTu) b1 ?_ (by rw [b3, hdu]) ?_ ?_).1
        · rw [b2]; exact lA u (by omega) d hd
        · rw [b5]; have : (d.loop : Int) ≤ ((s.run e u).side a).outD.frame := by exact_mod_cast hl
          omega
        · rw [b2, vA u (by omega) d hd]; exact hab
    obtain ⟨t, ht, hx, hdt⟩ := hdemands (max T8 (max T1 T3))
    obtain ⟨u, hu, hux, hud⟩ := ereceived hi hone (hdel a) hx
    have hu8 : T8 ≤ u := le_trans (le_trans (le_max_left _ _) ht) hu
    have hu1 : T1 ≤ u := le_trans (le_trans (le_trans (le_max_left _ _) (le_max_right _ _)) ht) hu
    have hu3 : T3 ≤ u := le_trans (le_trans (le_trans (le_max_right _ _) (le_max_right _ _)) ht) hu
    obtain ⟨d, hd, -, -, he, -, -, f3, -⟩ := erun_self hi hux.symm
    obtain ⟨b, hb, b1, b2, b3, b4, b5⟩ := hfirst u (!a) d (hT1.trans hu1)
    rw [← hb] at he
    have hdd : d.demand = true := by rw [← f3, hud]; exact hdt
    have := take_supply (hvb u (hT1.trans hu1) hux) (hcalls u (hT1.trans hu1)) b1 (by rw [b2]; exact lB u hu3 d hd)
      (by rw [b3]; exact hB' u hu1) ⟨by rw [b2]; exact hdd, by
        rw [b4, b5]
        have h1 := hphi u (max_le hu1 hu3)
        have h2 := hloop u hu8 d hd
        obtain ⟨_, -, -, -, -, f1, -⟩ := erun_self hi hw6.symm
        rw [f1] at h2
        have h3 := eframe_mono (e := e) hi (!a) hT6
        have h4 : (((s.run e (max T1 T3)).side (!a)).outD.frame : Int) + 1 ≤ d.loop := by exact_mod_cast (by omega)
        linarith⟩ (by rw [b2]; exact vB u hu1 d hd)
    rw [← he, hB' (u + 1) (by omega)] at this
    cases this
  · -- it supplies from some time on, and the other side sees that
    have reachA : ∃ T5, T4 ≤ T5 ∧ ∀ t, T5 ≤ t → ∀ d ∈ (s.run e t).view a, d.demand = false ∧ va < d.volt := by
      have := ereaches hi (hstep (!a)) (hdel (!a)) (P := fun d => d.demand = false ∧ va < d.volt) (T := T4) (by
        intro t ht hx
        obtain ⟨d, hd, -, -, he, -⟩ := erun_self hi hx.symm
        have ht0 : T ≤ t := by omega
        refine ⟨hB (t + 1) (by omega), ?_⟩
        obtain ⟨b, hb, b1, b2, b3, -⟩ := hfirst t (!a) d ht0
        rw [he, ← hb]
        have hs : ((s.run e t).side (!a)).outD.demand = false := hB t ht
        have k := keep_supply (hvb t ht0 hx) b1 (by rw [b3, hs]) (by rw [b2]; exact vB t (by omega) d hd)
        rcases k.volt (hcalls t ht0) with ⟨-, h⟩ | ⟨⟨c, h1, h2⟩, -⟩
        · rw [b3, hs] at h; cases h
        · rw [h2]; exact hreg t ht0 hx hs c h1)
      rw [Bool.not_not] at this
      exact this
    obtain ⟨T5, hT5, vA⟩ := reachA
    have goA : ∀ t, max T5 T2 ≤ t → (e t).who = a → ((s.run e (t + 1)).side a).outD.demand = true := by
      intro t ht hx
      have h5 : T5 ≤ t := le_trans (le_max_left _ _) ht
      have h2 : T2 ≤ t := le_trans (le_max_right _ _) ht
      have ht0 : T ≤ t := by omega
      obtain ⟨d, hd, -, hl, he, -⟩ := erun_self hi hx.symm
      obtain ⟨b, hb, b1, b2, b3, -, b5⟩ := hfirst t a d ht0
      obtain ⟨d1, d2⟩ := vA t h5 d hd
      rw [he, ← hb]
      by_cases hdem : b.outD.demand = true
      · have k := keep_demand (v := va) (fun c hc => (hva t ht0 hx c hc).1) b1 hdem (by rw [b2, d1]; rintro ⟨h, -⟩; cases h)
        rw [k.demand, hdem]
      · rw [Bool.not_eq_true] at hdem
        refine (take_demand (v := va) (fun c hc => (hva t ht0 hx c hc).1) (hcalls t ht0) b1 ?_ hdem ?_ ?_).1
        · rw [b2]; exact lA t h2 d hd
        · rw [b5]; have : (d.loop : Int) ≤ ((s.run e t).side a).outD.frame := by exact_mod_cast hl
          omega
        · rw [b2]; exact d2
    obtain ⟨T6, hT6, hw⟩ := hstep a (max T5 T2)
    refine ⟨T6 + 1, fun t ht => ⟨?_, hB t (by omega)⟩⟩
    induction t, ht using Nat.le_induction with
    | base => exact goA T6 hT6 hw
    | succ t ht ih =>
      by_cases hx : a = (e t).who
      · exact goA t (by omega) hx.symm
      · rw [erun_other hx]; exact ih

end Gunns.Interop
