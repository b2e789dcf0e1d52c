import Verif.Interop.ElectRun
import Mathlib.Order.Bounds.Basic

/-!
# The two-way electrical bus (C34)

Two sides exchange their data over a channel with any delay. The side with the highest available voltage is to
supply and the other to demand.
-/

set_option linter.unusedSectionVars false

namespace Gunns.Props
open Gunns.Interop Gunns

variable {K : Type _} [Field K] [LinearOrder K] [IsStrictOrderedRing K]

/-- The highest voltage of the supplies that are available, or zero. -/
def Highest (ss : List (Supply K)) (v : K) : Prop :=
  IsGreatest (insert 0 {u | ∃ s ∈ ss, s.available = true ∧ s.voltage = u}) v

/-- C34: the voltage that the roles depend on is the highest available one. -/
theorem c34_highest (ss : List (Supply K)) : Highest ss (availV ss) := by
  have key : ∀ (ss : List (Supply K)) (v : K), IsGreatest (insert v {u | ∃ s ∈ ss, s.available = true ∧ s.voltage = u})
      (ss.foldl (fun v s => if s.available = true ∧ v < s.voltage then s.voltage else v) v) := by
    intro ss
    induction ss with
    | nil => intro v; constructor <;> simp [upperBounds]
    | cons s ss ih =>
      intro v
      rw [List.foldl_cons]
      obtain ⟨h1, h2⟩ := ih (if s.available = true ∧ v < s.voltage then s.voltage else v)
      constructor
      · rcases h1 with h1 | ⟨s', g1, g2, g3⟩
        · rw [h1]
          split_ifs with h
          · exact Or.inr ⟨s, by simp, h.1, rfl⟩
          · exact Or.inl rfl
        · exact Or.inr ⟨s', by simp [g1], g2, g3⟩
      · have h0 := h2 (Or.inl rfl)
        rintro u (hu | ⟨s', g1, g2, g3⟩)
        · rw [hu]
          refine le_trans ?_ h0
          split_ifs with h
          · exact h.2.le
          · exact le_refl _
        · rcases List.mem_cons.1 g1 with g | g
          · subst g
            rw [← g3]
            refine le_trans ?_ h0
            split_ifs with h
            · exact le_refl _
            · exact not_lt.1 (fun h' => h ⟨g2, h'⟩)
          · exact h2 (Or.inr ⟨s', g, g2, g3⟩)
  exact key ss 0

/-- The highest voltage is unique. -/
theorem highest_eq {ss : List (Supply K)} {v : K} (h : Highest ss v) : availV ss = v :=
  (c34_highest ss).unique h

/-- The side is in the demand role. -/
def eDemands (s : ESys K) (x : Bool) : Prop := (s.side x).outD.demand = true

/-- An endless run in which both sides keep going and each item sent is received in its turn. -/
structure ELively (s : ESys K) (e : Nat → EEvent K) : Prop where
  steps : ∀ x t, ∃ t', t ≤ t' ∧ (e t').who = x
  lossless : ∀ t, (e t).count ≤ 1
  arrives : ∀ x t, ∃ t', t ≤ t' ∧ ((s.run e t).side x).outD.frame ≤ ((s.run e t').side (!x)).inD.frame

/-- C34: whatever happened before time `T`, forced roles included, once the highest available voltages stay at `va` and
at `vb > va`, the side with `vb` ends supplying and the other demanding, for ever. The side with `va` never has more than
`vb` at the interface; the other keeps the interface above `va` while it supplies. -/
theorem c34_settles (p : Bool → Bool) (v0 : Bool → K) (e : Nat → EEvent K) (hl : ELively (ESys.init p v0) e) (a : Bool)
    {va vb : K} (hab : va < vb) (T : Nat) (hrole : ∀ t, T ≤ t → (e t).role = .none) (hcalls : ∀ t, T ≤ t → (e t).calls ≠ [])
    (hva : ∀ t, T ≤ t → (e t).who = a → ∀ c ∈ (e t).calls, Highest c.supplies va ∧ c.volt ≤ vb)
    (hvb : ∀ t, T ≤ t → (e t).who = (!a) → ∀ c ∈ (e t).calls, Highest c.supplies vb)
    (hreg : ∀ t, T ≤ t → (e t).who = (!a) → ¬ eDemands ((ESys.init p v0).run e t) (!a) →
      ∀ c ∈ (e t).calls, va < c.volt) :
    ∃ T', ∀ t, T' ≤ t → eDemands ((ESys.init p v0).run e t) a ∧ ¬ eDemands ((ESys.init p v0).run e t) (!a) := by
  obtain ⟨T', h⟩ := eroles_settle (einv_init p v0) hab hl.steps hl.arrives hl.lossless hrole hcalls
    (fun t ht hw c hc => ⟨highest_eq (hva t ht hw c hc).1, (hva t ht hw c hc).2⟩)
    (fun t ht hw c hc => highest_eq (hvb t ht hw c hc))
    (fun t ht hw hd => hreg t ht hw (fun h => by unfold eDemands at h; rw [hd] at h; cases h))
  exact ⟨T', fun t ht => ⟨(h t ht).1, fun g => by unfold eDemands at g; rw [(h t ht).2] at g; cases g⟩⟩

/-- C34: a side obeys a forced role in every frame in which it is updated. -/
theorem c34_forced (s : ESys K) (e : EEvent K) (hc : e.calls ≠ []) (hr : e.role ≠ .none) :
    eDemands (e.run s) e.who ↔ e.role = .demand := by
  unfold eDemands
  rw [EEvent.run_side, if_pos rfl]
  exact updates_forced (b := eInputs { s.side e.who with
    forced := e.role
    inD := (((s.chan e.who).take e.count).getLast?).getD (s.side e.who).inD }) hc hr

/-- C34: what a side sends at the end of a frame whose last update was `c`, as the other side `r` applies it. A supplying
side sends its own voltage and no load; a demanding side sends the highest voltage it could supply, and its load, which
the other side takes if it is supplying. -/
theorem c34_exchange (s : ESys K) (e : EEvent K) (cs : List (Call K)) (c : Call K) (hc : e.calls = cs ++ [c]) (r : EBus K)
    (hr : r.inD = ((e.run s).side e.who).outD) :
    (¬ eDemands (e.run s) e.who → getRemoteSupply r = c.volt ∧ getRemoteLoad r = 0) ∧
    (eDemands (e.run s) e.who → Highest c.supplies (getRemoteSupply r) ∧
      getRemoteLoad r = if r.outD.demand = true then 0 else c.power) := by
  have h : ∃ b, (e.run s).side e.who = eUpdate b c := by
    refine ⟨cs.foldl eUpdate (eInputs { s.side e.who with
      forced := e.role
      inD := (((s.chan e.who).take e.count).getLast?).getD (s.side e.who).inD }), ?_⟩
    rw [EEvent.run_side, if_pos rfl]
    unfold eFrame
    rw [hc, List.foldl_append]; rfl
  obtain ⟨b, h⟩ := h
  unfold eDemands getRemoteSupply getRemoteLoad
  rw [hr, h, eUpdate_eq]
  generalize eRole (availV c.supplies) b = d
  constructor
  · intro hd
    change ¬ d.outD.demand = true at hd
    refine ⟨if_neg hd, ?_⟩
    show (if _ then (0 : K) else if d.outD.demand = true then c.power else 0) = 0
    rw [if_neg hd]
    exact ite_self _
  · intro hd
    change d.outD.demand = true at hd
    constructor
    · show Highest _ (if d.outD.demand = true then availV c.supplies else c.volt)
      rw [if_pos hd]
      exact c34_highest _
    · show (if _ then (0 : K) else if d.outD.demand = true then c.power else 0) = _
      rw [if_pos hd]

/-- Voltages stay at most `v` on a side: available, and at the interface. -/
def EEvent.Low (e : EEvent K) (v : K) : Prop :=
  ∀ c ∈ e.calls, (∀ s ∈ c.supplies, s.available = true → s.voltage ≤ v) ∧ 0 ≤ v ∧ c.volt ≤ v

/-- At least `v` is available on a side. -/
def EEvent.High (e : EEvent K) (v : K) : Prop :=
  ∀ c ∈ e.calls, v = 0 ∨ ∃ s ∈ c.supplies, s.available = true ∧ v ≤ s.voltage

theorem low_avail {ss : List (Supply K)} {v : K} (h : ∀ s ∈ ss, s.available = true → s.voltage ≤ v) (h0 : 0 ≤ v) :
    availV ss ≤ v := by
  rcases (c34_highest ss).1 with g | ⟨s, g1, g2, g3⟩
  · rw [g]; exact h0
  · rw [← g3]; exact h s g1 g2

theorem high_avail {ss : List (Supply K)} {v : K} (h : v = 0 ∨ ∃ s ∈ ss, s.available = true ∧ v ≤ s.voltage) :
    v ≤ availV ss := by
  rcases h with h | ⟨s, h1, h2, h3⟩
  · rw [h]; exact (c34_highest ss).2 (Or.inl rfl)
  · exact h3.trans ((c34_highest ss).2 (Or.inr ⟨s, h1, h2, rfl⟩))

/-- A call that changes nothing about the role. -/
theorem eUpdate_stays {b : EBus K} (c : Call K) (hf : b.forced = .none)
    (h : (b.outD.demand = true → b.inD.demand = false) ∧ (b.outD.demand = false → b.inD.volt ≤ availV c.supplies)) :
    (eUpdate b c).outD.demand = b.outD.demand ∧
      (eUpdate b c).outD.volt = if b.outD.demand = true then availV c.supplies else c.volt := by
  have e : eRole (availV c.supplies) b = b := by
    unfold eRole
    rw [hf]
    simp only
    by_cases hd : b.outD.demand = true
    · rw [if_pos hd, if_neg (show ¬ (b.inD.demand = true ∧ _) by rw [h.1 hd]; rintro ⟨g, -⟩; cases g)]
      exact ite_self _
    · rw [if_neg hd, if_neg (not_lt.2 (h.2 (by simpa using hd)))]
      exact ite_self _
  rw [eUpdate_eq, e]
  exact ⟨rfl, rfl⟩

theorem updates_stay {v : K} {cs : List (Call K)} {b : EBus K} (hf : b.forced = .none)
    (h1 : b.outD.demand = true → b.inD.demand = false)
    (h2 : b.outD.demand = false → b.inD.volt ≤ v ∧ ∀ c ∈ cs, v ≤ availV c.supplies)
    (h3 : b.outD.volt ≤ v) (h4 : ∀ c ∈ cs, availV c.supplies ≤ v ∧ c.volt ≤ v) :
    (cs.foldl eUpdate b).outD.demand = b.outD.demand ∧ (cs.foldl eUpdate b).outD.volt ≤ v := by
  induction cs generalizing b with
  | nil => exact ⟨rfl, h3⟩
  | cons c cs ih =>
    obtain ⟨o1, o2⟩ := eUpdate_stays c hf ⟨h1, fun hd => (h2 hd).1.trans ((h2 hd).2 c (by simp))⟩
    obtain ⟨-, -, g3, -, g5, -⟩ := eUpdate_same b c
    have hv : (eUpdate b c).outD.volt ≤ v := by
      rw [o2]
      split_ifs
      · exact (h4 c (by simp)).1
      · exact (h4 c (by simp)).2
    obtain ⟨k1, k2⟩ := ih (b := eUpdate b c) (g5.trans hf) (by rw [o1, g3]; exact h1)
      (by rw [o1, g3]; exact fun hd => ⟨(h2 hd).1, fun c' h' => (h2 hd).2 c' (by simp [h'])⟩) hv
      (fun c' h' => h4 c' (by simp [h']))
    exact ⟨k1.trans o1, k2⟩

/-- What does not change while the supplying sides have the highest voltage. -/
theorem roles_stay {p : Bool → Bool} {v0 : Bool → K} {v : K} (hp : p true = true ∨ p false = true) (h0 : ∀ x, v0 x ≤ v)
    {es : List (EEvent K)} (he : ∀ e ∈ es, e.role = .none ∧ EEvent.Low e v ∧ (p e.who = true → EEvent.High e v)) :
    let s := (ESys.init p v0).after es;
    (∀ x, (s.side x).outD.demand = !(p x) ∧ (s.side x).outD.volt ≤ v) ∧
    ∀ x, ∀ d ∈ s.view x, (p x = false → d.demand = false) ∧ d.volt ≤ v := by
  induction es using List.reverseRecOn with
  | nil =>
    refine ⟨fun x => ⟨rfl, h0 x⟩, fun x d hd => ?_⟩
    have hd' : d ∈ [(EBus.init (p x) (v0 x)).inD] := hd
    rw [List.mem_singleton] at hd'
    rw [hd']
    exact ⟨fun h => h, h0 x⟩
  | append_singleton es e ih =>
    obtain ⟨i1, i2⟩ := ih (fun e' h' => he e' (by simp [h']))
    obtain ⟨r1, r2, r3⟩ := he e (by simp)
    show (∀ x, _) ∧ _
    unfold ESys.after at i1 i2 ⊢
    rw [List.foldl_append]
    generalize es.foldl (fun s e => e.run s) (ESys.init p v0) = s at i1 i2 ⊢
    show (∀ x, ((e.run s).side x).outD.demand = !(p x) ∧ ((e.run s).side x).outD.volt ≤ v) ∧
      ∀ x, ∀ d ∈ (e.run s).view x, (p x = false → d.demand = false) ∧ d.volt ≤ v
    have hne : (!e.who) ≠ e.who := by cases e.who <;> simp
    have two : ∀ z, z = e.who ∨ z = !e.who := by intro z; cases z <;> cases e.who <;> simp
    have hview := EEvent.run_view_self e s
    have hsub : ((s.view e.who).drop (min e.count (s.chan e.who).length)).Sublist (s.view e.who) := List.drop_sublist _ _
    have hin : ((e.run s).side e.who).inD ∈ s.view e.who := by
      apply hsub.mem
      rw [← hview]
      exact List.mem_cons_self
    have hself : ((e.run s).side e.who).outD.demand = !(p e.who) ∧ ((e.run s).side e.who).outD.volt ≤ v := by
      have hi2 := i2 e.who _ hin
      have heq : (e.run s).side e.who = e.calls.foldl eUpdate (eInputs { s.side e.who with
          forced := e.role
          inD := (((s.chan e.who).take e.count).getLast?).getD (s.side e.who).inD }) := by
        rw [EEvent.run_side, if_pos rfl]; rfl
      obtain ⟨-, -, g3, -⟩ := updates_same e.calls (eInputs { s.side e.who with
          forced := e.role
          inD := (((s.chan e.who).take e.count).getLast?).getD (s.side e.who).inD })
      rw [← heq] at g3
      rw [g3] at hi2
      rw [heq]
      have k := updates_stay (v := v) (cs := e.calls) (b := eInputs { s.side e.who with
          forced := e.role
          inD := (((s.chan e.who).take e.count).getLast?).getD (s.side e.who).inD }) r1 ?_ ?_ (i1 e.who).2
        (fun c hc => ⟨low_avail (r2 c hc).1 (r2 c hc).2.1, (r2 c hc).2.2⟩)
      · exact ⟨k.1.trans (i1 e.who).1, k.2⟩
      · intro hd
        change (s.side e.who).outD.demand = true at hd
        rw [(i1 e.who).1] at hd
        exact hi2.1 (by simpa using hd)
      · intro hd
        change (s.side e.who).outD.demand = false at hd
        rw [(i1 e.who).1] at hd
        exact ⟨hi2.2, fun c hc => high_avail (r3 (by simpa using hd) c hc)⟩
    refine ⟨fun x => ?_, fun x d hd => ?_⟩
    · rcases two x with rfl | rfl
      · exact hself
      · rw [EEvent.run_side, if_neg hne]; exact i1 _
    · rcases two x with rfl | rfl
      · rw [hview] at hd
        exact i2 _ d (hsub.mem hd)
      · rw [EEvent.run_view_other, List.mem_append, List.mem_singleton] at hd
        rcases hd with hd | hd
        · exact i2 _ d hd
        · rw [hd]
          refine ⟨fun hpf => ?_, hself.2⟩
          rw [hself.1]
          have : p e.who = true := by
            generalize e.who = w at hpf ⊢
            rcases hp with hp | hp <;> cases w
            · rw [show (!false) = true from rfl, hp] at hpf; cases hpf
            · exact hp
            · exact hp
            · rw [show (!true) = false from rfl, hp] at hpf; cases hpf
          rw [this]; rfl

/-- C34: if one side is set up as primary and the other not, and at all times the primary side has a voltage available at least as
high as any on the other, then the primary side always supplies and the other always demands, from the first frame on,
whatever is delayed or lost. -/
theorem c34_steady (p : Bool → Bool) (v0 : Bool → K) (v : K) (x : Bool) (hp : p x = true) (hq : p (!x) = false)
    (h0 : ∀ x, v0 x ≤ v) (es : List (EEvent K))
    (he : ∀ e ∈ es, e.role = .none ∧ EEvent.Low e v ∧ (e.who = x → EEvent.High e v)) :
    ¬ eDemands ((ESys.init p v0).after es) x ∧ eDemands ((ESys.init p v0).after es) (!x) := by
  obtain ⟨h, -⟩ := roles_stay (p := p) (v0 := v0) (v := v) (es := es) (by cases x <;> tauto) h0 (by
    intro e h'
    obtain ⟨h1, h2, h3⟩ := he e h'
    refine ⟨h1, h2, fun hw => h3 ?_⟩
    by_contra hne
    have : e.who = !x := by revert hne; cases e.who <;> cases x <;> simp
    rw [this, hq] at hw; cases hw)
  unfold eDemands
  rw [(h x).1, (h (!x)).1, hp, hq]
  simp

/-- C34 limit: "If both sides initialize to the same mode, they will sort it out at runtime" (Distributed2WayBusElect.cpp:81-82)
does not hold if the same voltage is available on both: both supply for ever. -/
theorem c34_both_supply (v0 : Bool → K) (v : K) (h0 : ∀ x, v0 x ≤ v) (es : List (EEvent K))
    (he : ∀ e ∈ es, e.role = .none ∧ EEvent.Low e v ∧ EEvent.High e v) (x : Bool) :
    ¬ eDemands ((ESys.init (fun _ => true) v0).after es) x := by
  obtain ⟨h, -⟩ := roles_stay (p := fun _ => true) (v0 := v0) (v := v) (es := es) (Or.inl rfl) h0 (by
    intro e h'
    obtain ⟨h1, h2, h3⟩ := he e h'
    exact ⟨h1, h2, fun _ => h3⟩)
  unfold eDemands
  rw [(h x).1]
  simp

/-! ## Cases -/

/-- A frame with one update, of a side with one supply. -/
def eStep (who : Bool) (role : Role) (avail volt power : ℚ) : EEvent ℚ :=
  { who := who, count := 1, role := role, calls := [{ supplies := [⟨true, avail⟩, ⟨false, 1000⟩], volt := volt, power := power }] }

/-- Two sides that take turns, after both were forced to demand: one with 28 V, the other with 120 V. -/
def eTurns (t : Nat) : EEvent ℚ :=
  if t % 2 = 0 then eStep true (if t < 20 then .demand else .none) 28 28 5
  else eStep false (if t < 20 then .demand else .none) 120 119 7

theorem highest_one (v : ℚ) (h : 0 ≤ v) : Highest [⟨true, v⟩, ⟨false, 1000⟩] v := by
  constructor
  · exact Or.inr ⟨⟨true, v⟩, by simp, rfl, rfl⟩
  · rintro u (hu | ⟨s, h1, h2, h3⟩)
    · rw [hu]; exact h
    · rcases List.mem_cons.1 h1 with g | g
      · rw [← h3, g]
      · rw [List.mem_singleton] at g
        rw [g] at h2; cases h2

theorem eTurns_who (t : Nat) : (eTurns t).who = (t % 2 == 0) := by
  unfold eTurns
  rcases Nat.mod_two_eq_zero_or_one t with h | h <;> rw [h] <;> rfl

theorem eTurns_count (t : Nat) : (eTurns t).count = 1 := by
  unfold eTurns
  split_ifs <;> rfl

/-- Taking turns is lively. -/
theorem elively_turns (p : Bool → Bool) (v0 : Bool → ℚ) : ELively (ESys.init p v0) eTurns := by
  have hi := einv_init p v0
  have hwho : ∀ t, (eTurns (t + 1)).who = !(eTurns t).who := by
    intro t
    rw [eTurns_who, eTurns_who]
    rcases Nat.mod_two_eq_zero_or_one t with h | h
    · rw [h, show (t + 1) % 2 = 1 by omega]; rfl
    · rw [h, show (t + 1) % 2 = 0 by omega]; rfl
  have hch : ∀ t, (((ESys.init p v0).run eTurns t).chan (eTurns t).who).length ≤ 1 ∧
      ((ESys.init p v0).run eTurns t).chan (!(eTurns t).who) = [] := by
    intro t
    induction t with
    | zero => exact ⟨Nat.zero_le _, rfl⟩
    | succ t ih =>
      rw [hwho, Bool.not_not]
      have hne : (!(eTurns t).who) ≠ (eTurns t).who := by cases (eTurns t).who <;> simp
      constructor
      · show (if (!(eTurns t).who) = (eTurns t).who then _ else _ : List (EData ℚ)).length ≤ 1
        rw [if_neg hne, ih.2]
        exact le_refl _
      · show (if (eTurns t).who = (eTurns t).who then _ else _ : List (EData ℚ)) = []
        rw [if_pos rfl]
        apply List.drop_eq_nil_of_le
        rw [eTurns_count]
        exact ih.1
  have hget : ∀ t x, (eTurns t).who = x → (((ESys.init p v0).run eTurns (t + 2)).side (!x)).inD =
      (((ESys.init p v0).run eTurns (t + 1)).side x).outD := by
    intro t x hx
    subst hx
    have h1 := EEvent.run_view_other (eTurns t) ((ESys.init p v0).run eTurns t)
    have h2 := EEvent.run_view_self (eTurns (t + 1)) ((ESys.init p v0).run eTurns (t + 1))
    rw [hwho, eTurns_count] at h2
    have h3 := (hch t).2
    have h4 : ((ESys.init p v0).run eTurns (t + 1)).chan (!(eTurns t).who) =
        [(((ESys.init p v0).run eTurns (t + 1)).side (eTurns t).who).outD] := by
      unfold ESys.view at h1
      have h5 := (List.cons.inj h1).2
      rw [h3] at h5
      exact h5
    rw [h4] at h2
    unfold ESys.view at h2
    rw [h4] at h2
    exact (List.cons.inj h2).1
  have hsteps : ∀ x t, ∃ t', t ≤ t' ∧ (eTurns t').who = x := by
    intro x t
    by_cases h : (eTurns t).who = x
    · exact ⟨t, le_refl _, h⟩
    · refine ⟨t + 1, Nat.le_succ _, ?_⟩
      rw [hwho]
      revert h
      cases (eTurns t).who <;> cases x <;> simp
  refine ⟨hsteps, fun t => by rw [eTurns_count], fun x t => ?_⟩
  obtain ⟨u, hu, hx⟩ := hsteps x t
  refine ⟨u + 2, by omega, ?_⟩
  rw [hget u x hx]
  exact eframe_mono hi x (by omega)

/-- The hypotheses of `c34_settles` are met by sides that take turns. -/
example : ∃ T, ∀ t, T ≤ t → eDemands ((ESys.init (fun _ => true) (fun _ => 0)).run eTurns t) true ∧
    ¬ eDemands ((ESys.init (fun _ => true) (fun _ => 0)).run eTurns t) false := by
  have h2 : ∀ t, (eTurns t).who = true → ∃ r, eTurns t = eStep true r 28 28 5 := by
    intro t h
    rw [eTurns_who] at h
    unfold eTurns
    rw [if_pos (by simpa using h)]
    exact ⟨_, rfl⟩
  have h3 : ∀ t, (eTurns t).who = false → ∃ r, eTurns t = eStep false r 120 119 7 := by
    intro t h
    rw [eTurns_who] at h
    unfold eTurns
    rw [if_neg (by simpa using h)]
    exact ⟨_, rfl⟩
  refine c34_settles (fun _ => true) (fun _ => 0) eTurns (elively_turns _ _) true (va := 28) (vb := 120) (by norm_num) 20 ?_ ?_ ?_ ?_ ?_
  · intro t ht
    unfold eTurns
    have h20 : ¬ t < 20 := by omega
    simp only [if_neg h20]
    split_ifs <;> rfl
  · intro t _
    unfold eTurns
    split_ifs <;> exact List.cons_ne_nil _ _
  · intro t _ hw c hc
    obtain ⟨r, h⟩ := h2 t hw
    rw [h] at hc
    rw [List.mem_singleton.1 hc]
    exact ⟨highest_one 28 (by norm_num), by norm_num⟩
  · intro t _ hw c hc
    obtain ⟨r, h⟩ := h3 t hw
    rw [h] at hc
    rw [List.mem_singleton.1 hc]
    exact highest_one 120 (by norm_num)
  · intro t _ hw _ c hc
    obtain ⟨r, h⟩ := h3 t hw
    rw [h] at hc
    rw [List.mem_singleton.1 hc]
    norm_num

/-- The roles in the first frames of such a run. -/
example : (List.map (fun t => (((ESys.init (fun _ => true) (fun _ => (0 : ℚ))).run eTurns t).side true).outD.demand) [0, 1, 20, 30, 40],
    List.map (fun t => (((ESys.init (fun _ => true) (fun _ => (0 : ℚ))).run eTurns t).side false).outD.demand) [0, 2, 20, 30, 40]) =
    ([false, true, true, true, true], [false, true, true, false, false]) := by decide +kernel

/-- The hypotheses of `c34_steady` are met. -/
example : ¬ eDemands ((ESys.init (fun x => x) (fun _ => (0 : ℚ))).after
    [eStep true .none 28 28 5, eStep false .none 28 27 1, eStep true .none 28 26 4]) true := by
  have low : ∀ (w : Bool) (a v p : ℚ), a ≤ 28 → v ≤ 28 → EEvent.Low (eStep w .none a v p) 28 := by
    intro w a v p ha hv c hc
    rw [List.mem_singleton.1 hc]
    refine ⟨?_, by norm_num, hv⟩
    intro s hs hav
    rcases List.mem_cons.1 hs with g | g
    · rw [g]; exact ha
    · rw [List.mem_singleton.1 g] at hav; cases hav
  have high : ∀ (w : Bool) (v p : ℚ), EEvent.High (eStep w .none 28 v p) 28 := by
    intro w v p c hc
    rw [List.mem_singleton.1 hc]
    exact Or.inr ⟨⟨true, 28⟩, by simp, rfl, le_refl _⟩
  refine (c34_steady (fun x => x) (fun _ => 0) 28 true rfl rfl (fun _ => by norm_num) _ ?_).1
  intro e he
  simp only [List.mem_cons, List.not_mem_nil, or_false] at he
  rcases he with h | h | h <;> subst h
  · exact ⟨rfl, low _ _ _ _ (le_refl _) (le_refl _), fun _ => high _ _ _⟩
  · exact ⟨rfl, low _ _ _ _ (le_refl _) (by norm_num), fun _ => high _ _ _⟩
  · exact ⟨rfl, low _ _ _ _ (le_refl _) (by norm_num), fun _ => high _ _ _⟩

/-- What is sent and taken. -/
example : (fun s : ESys ℚ => (getRemoteSupply (s.side false), getRemoteLoad (s.side true), getRemoteSupply (s.side true)))
    ((ESys.init (fun x => x) (fun _ => (0 : ℚ))).after
      [eStep true .none 28 27 5, eStep false .none 20 26 7, eStep true .none 28 26 4]) = (27, 7, 20) := by
  decide +kernel

end Gunns.Props
