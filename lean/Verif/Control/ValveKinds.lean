import Verif.Control.ValveLemmas

/-!
# Lemmas about the kinds of valve controllers
-/

set_option linter.unusedSectionVars false

namespace Gunns.Valve

open Gunns.Elements
open Gunns.Valve.Spec

variable {K : Type _} [Field K] [LinearOrder K] [IsStrictOrderedRing K]

theorem not_hand {a b : Bool} : ¬ (a = true ∧ b = false) → (a = false ∨ b = true) := by
  rcases a <;> rcases b <;> simp

/-- Pushing past an end or resting at it is the same. -/
theorem updatePosition_beyond {c : Config K} {v : Base K} (h : Setup c v) {p q : K}
    (hpq : (c.maxPos ≤ p ∧ c.maxPos ≤ q) ∨ (p ≤ c.minPos ∧ q ≤ c.minPos)) :
    updatePosition v p = updatePosition v q := by
  obtain ⟨h1, h2, h3, _⟩ := h
  have hpick : pick v p = pick v q ∨ (pick v p = p ∧ pick v q = q) := by
    unfold pick
    by_cases a : v.stuck = false
    · rw [if_pos a, if_pos a]
      by_cases b : v.failTo = true
      · left; rw [if_pos b, if_pos b]
      · rw [if_neg b, if_neg b]
        by_cases d : v.manual = true ∧ v.malfManual = false
        · left; rw [if_pos d, if_pos d]
        · right; rw [if_neg d, if_neg d]; exact ⟨rfl, rfl⟩
    · left; rw [if_neg a, if_neg a]
  rcases hpick with he | ⟨e1, e2⟩
  · unfold updatePosition; rw [he]
  · have hl : limitRange v.minPos p v.maxPos = limitRange v.minPos q v.maxPos := by
      rw [h1, h2, limitRange_eq_clip h3.le, limitRange_eq_clip h3.le]
      rcases hpq with ⟨a, b⟩ | ⟨a, b⟩
      · rw [clip_high h3.le a, clip_high h3.le b]
      · rw [clip_low h3.le a, clip_low h3.le b]
    have hd : decide (p ≤ v.minPos) = decide (q ≤ v.minPos)
        ∧ decide (v.maxPos ≤ p) = decide (v.maxPos ≤ q) := by
      rw [h1, h2]
      rcases hpq with ⟨a, b⟩ | ⟨a, b⟩
      · constructor
        · rw [decide_eq_false (by linarith), decide_eq_false (by linarith)]
        · rw [decide_eq_true a, decide_eq_true b]
      · constructor
        · rw [decide_eq_true a, decide_eq_true b]
        · rw [decide_eq_false (by linarith), decide_eq_false (by linarith)]
    unfold updatePosition
    rw [e1, e2]
    simp only [hl, hd.1, hd.2]

theorem command_base (v : Powered K) (s e : Bool) (cmd dt : K) :
    (command v s e cmd dt).base
      = updatePosition v.base (drivePosition
          { v with
            supply := s
            enabled := e
            cmd := cmd } dt) := by
  unfold command
  rw [updatePowered_base]

theorem drivePosition_cmd (v : Powered K) (s e : Bool) (a b dt : K) :
    drivePosition
        { v with
          supply := s
          enabled := e
          cmd := a } dt
      = drivePosition
          { v with
            supply := s
            enabled := e
            cmd := b } dt
    ∨ (drivePosition
        { v with
          supply := s
          enabled := e
          cmd := a } dt = v.base.pos + a * v.cmdScale * dt
      ∧ drivePosition
        { v with
          supply := s
          enabled := e
          cmd := b } dt = v.base.pos + b * v.cmdScale * dt) := by
  unfold drivePosition
  by_cases h1 : v.driveStuck = false
  · by_cases h2 : v.driveFailTo = true
    · left; simp [h1, h2]
    · by_cases h3 : ¬ (s = true ∨ v.powerGood = true) ∨ v.powerFail = true ∨ e = false
      · left; dsimp only; rw [if_pos h1, if_pos h1, if_neg h2, if_neg h2, if_pos h3, if_pos h3]
      · right
        have he : e = true := by
          by_contra hc; exact h3 (Or.inr (Or.inr (by simpa using hc)))
        dsimp only
        rw [if_pos h1, if_pos h1, if_neg h2, if_neg h2, if_neg h3, if_neg h3, if_pos he, if_pos he]
        exact ⟨rfl, rfl⟩
  · left; simp [h1]

/-- At an end, a command that pushes past it does the same as no command. -/
theorem command_beyond {c : PConfig K} {v : Powered K} (h : PSetup c v) (s e : Bool) {a dt : K}
    (hdt : 0 ≤ dt)
    (ha : (v.base.pos = c.base.maxPos ∧ 0 ≤ a * v.cmdScale)
      ∨ (v.base.pos = c.base.minPos ∧ a * v.cmdScale ≤ 0)) :
    (command v s e a dt).base = (command v s e 0 dt).base := by
  rw [command_base, command_base]
  rcases drivePosition_cmd v s e a 0 dt with he | ⟨e1, e2⟩
  · rw [he]
  · rw [e1, e2]
    apply updatePosition_beyond h.1
    rcases ha with ⟨hp, hs⟩ | ⟨hp, hs⟩
    · left; rw [hp]; constructor
      · linarith [mul_nonneg hs hdt]
      · simp
    · right; rw [hp]; constructor
      · linarith [mul_nonpos_of_nonpos_of_nonneg hs hdt]
      · simp

/-- The power decision, in terms of the configuration. -/
theorem power_cases {c : PConfig K} {v : Powered K} (h : PSetup c v) (dt : K) :
    (¬ Live v → (updatePowered v dt).power = 0 ∧ (updatePowered v dt).resistance = 1000000)
      ∧ (Live v → (|v.cmd| ≤ dblEps ∨ (v.base.manual = true ∧ v.base.malfManual = false)) →
          (updatePowered v dt).power = c.holdPower
            ∧ (updatePowered v dt).resistance = c.refVoltage * c.refVoltage / c.holdPower)
      ∧ (Live v → dblEps < |v.cmd| → (v.base.manual = false ∨ v.base.malfManual = true) →
          ((v.base.stuck = true ∨ v.driveStuck = true
              ∨ (v.base.pos ≤ c.base.minPos ∧ v.cmd * c.refCmd < 0)
              ∨ (c.base.maxPos ≤ v.base.pos ∧ 0 < v.cmd * c.refCmd)) →
            (updatePowered v dt).power = c.stuckPower
              ∧ (updatePowered v dt).resistance = c.refVoltage * c.refVoltage / c.stuckPower)
          ∧ (¬ (v.base.stuck = true ∨ v.driveStuck = true
              ∨ (v.base.pos ≤ c.base.minPos ∧ v.cmd * c.refCmd < 0)
              ∨ (c.base.maxPos ≤ v.base.pos ∧ 0 < v.cmd * c.refCmd)) →
            (updatePowered v dt).power = c.movePower
              ∧ (updatePowered v dt).resistance = c.refVoltage * c.refVoltage / c.movePower)) := by
  have hp : (updatePowered v dt).power = (updatePower v).power := rfl
  have hr : (updatePowered v dt).resistance = (updatePower v).resistance := rfl
  rw [hp, hr]
  obtain ⟨⟨b1, b2, _⟩, hd, _, j1, j2, j3, j4, j5, j6, _⟩ := id h
  obtain ⟨sp, sn⟩ := scale_sign h
  refine ⟨fun g => ?_, fun g g2 => ?_, fun g g2 g3 => ?_⟩
  · unfold Live at g; unfold updatePower; rw [if_neg g]; exact ⟨rfl, rfl⟩
  · unfold Live at g
    unfold updatePower
    rw [if_pos g, if_neg (by
      rintro ⟨q1, q2⟩
      rcases g2 with g2 | ⟨m1, m2⟩
      · linarith
      · rcases q2 with q2 | q2
        · rw [m1] at q2; cases q2
        · rw [m2] at q2; cases q2)]
    exact ⟨j1, j4⟩
  · unfold Live at g
    have hiff : (v.base.stuck = true ∨ v.driveStuck = true
          ∨ (v.base.pos ≤ v.base.minPos
              ∧ ((v.cmd < 0 ∧ v.cmdScale > 0) ∨ (v.cmd > 0 ∧ v.cmdScale < 0)))
          ∨ (v.base.pos ≥ v.base.maxPos
              ∧ ((v.cmd > 0 ∧ v.cmdScale > 0) ∨ (v.cmd < 0 ∧ v.cmdScale < 0))))
        ↔ (v.base.stuck = true ∨ v.driveStuck = true
              ∨ (v.base.pos ≤ c.base.minPos ∧ v.cmd * c.refCmd < 0)
              ∨ (c.base.maxPos ≤ v.base.pos ∧ 0 < v.cmd * c.refCmd)) := by
      have e1 : ((v.cmd < 0 ∧ v.cmdScale > 0) ∨ (v.cmd > 0 ∧ v.cmdScale < 0))
          ↔ v.cmd * c.refCmd < 0 := by
        rw [gt_iff_lt, gt_iff_lt, sp, sn, mul_neg_iff]
        constructor
        · rintro (a | a)
          · exact Or.inr a
          · exact Or.inl a
        · rintro (a | a)
          · exact Or.inr a
          · exact Or.inl a
      have e2 : ((v.cmd > 0 ∧ v.cmdScale > 0) ∨ (v.cmd < 0 ∧ v.cmdScale < 0))
          ↔ 0 < v.cmd * c.refCmd := by
        rw [gt_iff_lt, gt_iff_lt, sp, sn, mul_pos_iff]
      rw [e1, e2, b1, b2]
    constructor
    · intro g4
      unfold updatePower
      rw [if_pos g, if_pos ⟨g2, g3⟩, if_pos (hiff.mpr g4)]
      exact ⟨j3, j6⟩
    · intro g4
      unfold updatePower
      rw [if_pos g, if_pos ⟨g2, g3⟩, if_neg (fun hh => g4 (hiff.mp hh))]
      exact ⟨j2, j5⟩

/-! ### The toggle command -/

/-- One sample of an enabled handler. -/
theorem toggle_step (dt : K) (hdt : dblEps < dt) (t : Toggle) (e g : Bool) :
    Toggle.update
        { t with
          enable := e
          toggle := g } dt
      = { enable := e
          toggle := e && g && t.armed
          armed := if e = true then !g else t.armed
          count := t.count + (if (e && g && t.armed) = true then 1 else 0) } := by
  unfold Toggle.update
  rw [if_pos hdt]
  rcases t with ⟨te, tt, ta, tc⟩
  rcases e <;> rcases g <;> rcases ta <;> rfl

theorem toggleRuns_spec (dt : K) (hdt : dblEps < dt) (samples : List (Bool × Bool)) :
    ∀ t : Toggle, (toggleRuns dt t samples).count = t.count + edges (!t.armed) (seen samples)
      ∧ (toggleRuns dt t samples).armed = !lastOf (!t.armed) (seen samples) := by
  induction samples with
  | nil => intro t; simp [toggleRuns, seen, edges, lastOf]
  | cons s ss ih =>
    intro t
    obtain ⟨e, g⟩ := s
    have hr : toggleRuns dt t ((e, g) :: ss) = toggleRuns dt (Toggle.update
        { t with
          enable := e
          toggle := g } dt) ss := rfl
    rw [hr, toggle_step dt hdt]
    obtain ⟨i1, i2⟩ := ih { enable := e
                            toggle := e && g && t.armed
                            armed := if e = true then !g else t.armed
                            count := t.count + (if (e && g && t.armed) = true then 1 else 0) }
    rw [i1, i2]
    rcases t with ⟨te, tt, ta, tc⟩
    rcases e <;> rcases g <;> rcases ta <;> simp [seen, edges, lastOf]
    omega

theorem queueLoop_spec (q : List (Bool × Bool)) : ∀ (armed : Bool) (n : Nat),
    queueLoop (q.map (·.2)) (q.map (·.1)) armed n
      = some (!lastOf (!armed) (seen q), n + edges (!armed) (seen q)) := by
  induction q with
  | nil => intro a n; simp [queueLoop, seen, edges, lastOf]
  | cons s ss ih =>
    intro a n
    obtain ⟨e, g⟩ := s
    rw [List.map_cons, List.map_cons, queueLoop]
    rcases e <;> rcases g <;> rcases a <;>
      simp [ih, seen, edges, lastOf]
    omega

theorem edges_append (p : Bool) (a b : List Bool) :
    edges p (a ++ b) = edges p a + edges (lastOf p a) b := by
  induction a generalizing p with
  | nil => simp [edges, lastOf]
  | cons x xs ih =>
    rcases p <;> rcases x <;> simp [edges, lastOf, ih]
    omega

theorem lastOf_append (p : Bool) (a b : List Bool) :
    lastOf p (a ++ b) = lastOf (lastOf p a) b := by
  induction a generalizing p with
  | nil => rfl
  | cons x xs ih => simp [lastOf, ih]

theorem seen_append (a b : List (Bool × Bool)) : seen (a ++ b) = seen a ++ seen b := by
  simp [seen]

theorem updateQueue_spec (dt : K) (hdt : dblEps < dt) (t : Toggle) (q : List (Bool × Bool))
    (hq : q ≠ []) :
    ∃ u, t.updateQueue (q.map (·.2)) (q.map (·.1)) dt = some u
      ∧ u.count = t.count + edges (!t.armed) (seen q)
      ∧ u.armed = !lastOf (!t.armed) (seen q)
      ∧ u.toggle = decide (edges (!t.armed) (seen q) % 2 = 1)
      ∧ (u.toggle = true → u.enable = true) := by
  have hl : 0 < (q.map (·.2)).length := by
    rw [List.length_map]; exact List.length_pos_of_ne_nil hq
  unfold Toggle.updateQueue
  rw [if_pos hdt, if_pos hl, queueLoop_spec]
  refine ⟨_, rfl, ?_, rfl, ?_, ?_⟩
  · simp
  · simp
  · simp only [Nat.zero_add, decide_eq_true_eq]
    intro h
    rw [if_pos h]

theorem queueRuns_spec (dt : K) (hdt : dblEps < dt) (qs : List (List (Bool × Bool))) :
    (∀ q ∈ qs, q ≠ []) → ∀ t : Toggle, ∃ u, queueRuns dt t qs = some u
      ∧ u.count = t.count + edges (!t.armed) (seen qs.flatten)
      ∧ u.armed = !lastOf (!t.armed) (seen qs.flatten) := by
  induction qs with
  | nil => intro _ t; exact ⟨t, rfl, by simp [seen, edges], by simp [seen, lastOf]⟩
  | cons q qs ih =>
    intro hq t
    obtain ⟨u, h1, h2, h3, _⟩ := updateQueue_spec dt hdt t q (hq q List.mem_cons_self)
    obtain ⟨w, g1, g2, g3⟩ := ih (fun x hx => hq x (List.mem_cons_of_mem _ hx)) u
    refine ⟨w, ?_, ?_, ?_⟩
    · rw [queueRuns, h1]; exact g1
    · rw [g2, h2, h3, List.flatten_cons, seen_append, edges_append]
      simp
      omega
    · rw [g3, h3, List.flatten_cons, seen_append, lastOf_append]
      simp

/-! ### Toggling the valve -/

theorem free_command {v : Powered K} (h : Free v) (cmd dt : K) :
    Free (command v v.supply v.enabled cmd dt) := free_step (v := { v with
      supply := v.supply
      enabled := v.enabled
      cmd := cmd }) h dt

theorem pos_command {c : PConfig K} {v : Powered K} (h : PSetup c v) (hf : Free v) (cmd dt : K) :
    (command v v.supply v.enabled cmd dt).base.pos
      = clip c.base.minPos c.base.maxPos (v.base.pos + cmd * v.cmdScale * dt) :=
  pos_step (v := { v with
      supply := v.supply
      enabled := v.enabled
      cmd := cmd }) h hf dt

theorem pos_toggle {c : PConfig K} {v : Powered K} (h : PSetup c v) (hf : Free v) {dt : K}
    (hdt : dblEps < dt) :
    (command v v.supply v.enabled (toggleCmd v.base true dt) dt).base.pos
      = clip c.base.minPos c.base.maxPos
          (if v.base.pos < (1 / 2) * (c.base.minPos + c.base.maxPos) then
            v.base.pos + (c.base.maxPos - c.base.minPos) * v.cmdScale
           else v.base.pos - (c.base.maxPos - c.base.minPos) * v.cmdScale) := by
  rw [pos_command h hf]
  have h0 : dt ≠ 0 := by
    have := dblEps_pos (K := K)
    intro hh; linarith
  unfold toggleCmd
  rw [if_pos ⟨rfl, hdt⟩, h.1.1, h.1.2.1]
  congr 1
  by_cases hm : v.base.pos < (1 / 2) * (c.base.minPos + c.base.maxPos)
  · rw [if_pos hm, if_pos hm]
    field_simp
  · rw [if_neg hm, if_neg hm]
    field_simp
    ring

theorem toggled_snoc (v : Powered K) (ds : List K) (d : K) :
    toggled v (ds ++ [d])
      = command (toggled v ds) (toggled v ds).supply (toggled v ds).enabled
          (toggleCmd (toggled v ds).base true d) d := by
  simp [toggled]

theorem toggled_setup {c : PConfig K} {v : Powered K} (h : PSetup c v) (hf : Free v) (ds : List K) :
    PSetup c (toggled v ds) ∧ Free (toggled v ds) ∧ (toggled v ds).cmdScale = v.cmdScale := by
  induction ds using List.reverseRecOn with
  | nil => exact ⟨h, hf, rfl⟩
  | append_singleton ds d ih =>
    rw [toggled_snoc]
    have hs := command_same (toggled v ds) (toggled v ds).supply (toggled v ds).enabled
      (toggleCmd (toggled v ds).base true d) d
    exact ⟨psetup_same ih.1 hs, free_command ih.2.1 _ _, by rw [hs.2.1, ih.2.2]⟩

/-- With too small a scale a closed valve never opens all the way, however often it is toggled. -/
theorem toggled_small {c : PConfig K} {v : Powered K} (h : PSetup c v) (hf : Free v)
    (h0 : 0 < v.cmdScale) (h1 : v.cmdScale < 1) (hp : v.base.pos = c.base.minPos) (ds : List K)
    (hd : ∀ d ∈ ds, dblEps < d) :
    (toggled v ds).base.pos < c.base.maxPos ∧ c.base.minPos ≤ (toggled v ds).base.pos
      ∧ (1 / 2 ≤ v.cmdScale → (toggled v ds).base.pos = c.base.minPos
          ∨ (toggled v ds).base.pos
              = c.base.minPos + (c.base.maxPos - c.base.minPos) * v.cmdScale) := by
  have hlt : c.base.minPos < c.base.maxPos := h.1.2.2.1
  obtain ⟨r, hr⟩ : ∃ r, r = c.base.maxPos - c.base.minPos := ⟨_, rfl⟩
  obtain ⟨s, hs⟩ : ∃ s, s = v.cmdScale := ⟨_, rfl⟩
  have hmax : c.base.maxPos = c.base.minPos + r := by rw [hr]; ring
  have hr0 : 0 < r := by rw [hr]; linarith
  rw [← hs] at h0 h1 ⊢
  rw [← hr]
  have hrs : 0 < r * s := mul_pos hr0 h0
  have hrs1 : r * s < r := by nlinarith
  induction ds using List.reverseRecOn with
  | nil =>
    show v.base.pos < _ ∧ _ ≤ v.base.pos ∧ (_ → v.base.pos = _ ∨ _)
    rw [hp]
    exact ⟨hlt, le_refl _, fun _ => Or.inl rfl⟩
  | append_singleton ds d ih =>
    obtain ⟨i1, i2, i3⟩ := ih (fun x hx => hd x (List.mem_append_left _ hx))
    obtain ⟨t1, t2, t3⟩ := toggled_setup h hf ds
    have hdd : dblEps < d := hd d (List.mem_append_right _ (List.mem_singleton.mpr rfl))
    rw [toggled_snoc, pos_toggle t1 t2 hdd, t3, ← hs, ← hr]
    obtain ⟨p, hpp⟩ : ∃ p, p = (toggled v ds).base.pos := ⟨_, rfl⟩
    rw [← hpp] at i1 i2 i3 ⊢
    by_cases hm : p < (1 / 2) * (c.base.minPos + c.base.maxPos)
    · rw [if_pos hm]
      by_cases hs2 : 1 / 2 ≤ s
      · have hrs2 : r * (1 / 2) ≤ r * s := mul_le_mul_of_nonneg_left hs2 hr0.le
        have hpe : p = c.base.minPos := by
          rcases i3 hs2 with i | i
          · exact i
          · exfalso; rw [i, hmax] at hm; linarith
        rw [hpe, clip_of_mem (by linarith) (by linarith)]
        exact ⟨by linarith, by linarith, fun _ => Or.inr rfl⟩
      · have hrs2 : r * s < r * (1 / 2) := mul_lt_mul_of_pos_left (not_le.mp hs2) hr0
        rw [clip_of_mem (by linarith) (by linarith)]
        exact ⟨by linarith, by linarith, fun h => absurd h hs2⟩
    · rw [if_neg hm]
      have hm' : (1 / 2) * (c.base.minPos + c.base.maxPos) ≤ p := not_lt.mp hm
      refine ⟨?_, (clip_mem hlt.le _).1, fun hs2 => ?_⟩
      · by_cases hlow : p - r * s ≤ c.base.minPos
        · rw [clip_low hlt.le hlow]; exact hlt
        · rw [clip_of_mem (by linarith) (by linarith)]; linarith
      · left
        rcases i3 hs2 with i | i
        · exfalso; rw [i, hmax] at hm'; linarith
        · rw [i, clip_low hlt.le (by linarith)]

/-! ### The position controller -/

theorem targeted_snoc (tol target : K) (v : Powered K) (ds : List K) (d : K) :
    targeted tol target v (ds ++ [d])
      = updateTarget (targeted tol target v ds) tol (targeted tol target v ds).enabled target
          (targeted tol target v ds).base.pos d := by
  simp [targeted]

theorem targeted_setup {c : PConfig K} {v : Powered K} (h : PSetup c v) (hf : Free v)
    (tol target : K) (ds : List K) :
    PSetup c (targeted tol target v ds) ∧ Free (targeted tol target v ds)
      ∧ (targeted tol target v ds).cmdScale = v.cmdScale := by
  induction ds using List.reverseRecOn with
  | nil => exact ⟨h, hf, rfl⟩
  | append_singleton ds d ih =>
    rw [targeted_snoc]
    have hs := command_same (targeted tol target v ds) (targeted tol target v ds).supply
      (targeted tol target v ds).enabled (positionCmd tol (targeted tol target v ds).cmdScale target
        (targeted tol target v ds).base.pos d) d
    exact ⟨psetup_same ih.1 hs, free_command ih.2.1 _ _, by
      rw [← ih.2.2]; exact hs.2.1⟩

/-- One update of the position controller with a forward drive. -/
theorem target_step {c : PConfig K} {v : Powered K} (h : PSetup c v) (hf : Free v)
    (hw : Within c.base v.base) (hs : 0 < v.cmdScale) (tol target : K)
    (ht1 : c.base.minPos ≤ target) (ht2 : target ≤ c.base.maxPos) {d : K} (hd : dblEps < d) :
    (updateTarget v tol v.enabled target v.base.pos d).base.pos
      = if |target - v.base.pos| < tol then v.base.pos
        else v.base.pos + clip (-(v.cmdScale * d)) (v.cmdScale * d) (target - v.base.pos) := by
  have hd0 : 0 < d := lt_trans dblEps_pos hd
  unfold updateTarget
  rw [pos_command h hf]
  unfold positionCmd
  by_cases hc : |target - v.base.pos| < tol
  · rw [if_pos hc, if_pos hc, zero_mul, zero_mul, add_zero, clip_of_mem hw.1 hw.2]
  · rw [if_neg hc, if_neg hc, if_pos hd]
    have hl : 0 < v.cmdScale * d := mul_pos hs hd0
    rw [mul_comm d, limitRange_eq_clip (by linarith)]
    have he : clip (-(v.cmdScale * d)) (v.cmdScale * d) (target - v.base.pos) / (v.cmdScale * d)
        * v.cmdScale * d = clip (-(v.cmdScale * d)) (v.cmdScale * d) (target - v.base.pos) := by
      rw [mul_assoc, div_mul_cancel₀ _ (ne_of_gt hl)]
    rw [he]
    apply clip_of_mem
    · unfold clip
      by_cases g1 : target - v.base.pos < -(v.cmdScale * d)
      · rw [if_pos g1]; linarith
      · rw [if_neg g1]
        by_cases g2 : v.cmdScale * d < target - v.base.pos
        · rw [if_pos g2]; linarith [hw.1]
        · rw [if_neg g2]; linarith
    · unfold clip
      by_cases g1 : target - v.base.pos < -(v.cmdScale * d)
      · rw [if_pos g1]; linarith [hw.2]
      · rw [if_neg g1]
        by_cases g2 : v.cmdScale * d < target - v.base.pos
        · rw [if_pos g2]; linarith
        · rw [if_neg g2]; linarith

theorem clip_dist {l x : K} (hl : 0 < l) :
    |x - clip (-l) l x| = max 0 (|x| - l) ∧ (0 ≤ x → 0 ≤ clip (-l) l x ∧ clip (-l) l x ≤ x)
      ∧ (x ≤ 0 → clip (-l) l x ≤ 0 ∧ x ≤ clip (-l) l x) := by
  unfold clip
  by_cases g1 : x < -l
  · rw [if_pos g1]
    refine ⟨?_, fun h => by linarith, fun _ => ⟨by linarith, by linarith⟩⟩
    rw [abs_of_neg (by linarith), abs_of_neg (by linarith), max_eq_right (by linarith)]
    ring
  · rw [if_neg g1]
    by_cases g2 : l < x
    · rw [if_pos g2]
      refine ⟨?_, fun _ => ⟨by linarith, by linarith⟩, fun h => by linarith⟩
      rw [abs_of_pos (by linarith), abs_of_pos (by linarith), max_eq_right (by linarith)]
    · rw [if_neg g2]
      refine ⟨?_, fun h => ⟨h, le_refl _⟩, fun h => ⟨h, le_refl _⟩⟩
      have : |x| ≤ l := abs_le.mpr ⟨by linarith, by linarith⟩
      rw [sub_self, abs_zero, max_eq_left (by linarith)]

/-- The position controller moves to its target without passing it. -/
theorem targeted_spec {c : PConfig K} {v : Powered K} (h : PSetup c v) (hf : Free v)
    (hw : Within c.base v.base) (hs : 0 < v.cmdScale) (tol target : K)
    (ht1 : c.base.minPos ≤ target) (ht2 : target ≤ c.base.maxPos) (ds : List K)
    (hd : ∀ d ∈ ds, dblEps < d) :
    (v.base.pos ≤ target → v.base.pos ≤ (targeted tol target v ds).base.pos
        ∧ (targeted tol target v ds).base.pos ≤ target)
      ∧ (target ≤ v.base.pos → target ≤ (targeted tol target v ds).base.pos
        ∧ (targeted tol target v ds).base.pos ≤ v.base.pos)
      ∧ (|target - (targeted tol target v ds).base.pos| < tol
        ∨ |target - (targeted tol target v ds).base.pos|
            = max 0 (|target - v.base.pos| - v.cmdScale * ds.sum)) := by
  induction ds using List.reverseRecOn with
  | nil =>
    have he : targeted tol target v [] = v := rfl
    rw [he]
    refine ⟨fun h => ⟨le_refl _, h⟩, fun h => ⟨h, le_refl _⟩, Or.inr ?_⟩
    rw [List.sum_nil, mul_zero, sub_zero, max_eq_right (abs_nonneg _)]
  | append_singleton ds d ih =>
    obtain ⟨i1, i2, i3⟩ := ih (fun x hx => hd x (List.mem_append_left _ hx))
    obtain ⟨t1, t2, t3⟩ := targeted_setup h hf tol target ds
    have hdd : dblEps < d := hd d (List.mem_append_right _ (List.mem_singleton.mpr rfl))
    have hd0 : 0 < d := lt_trans dblEps_pos hdd
    have hl : 0 < v.cmdScale * d := mul_pos hs hd0
    have hw' : Within c.base (targeted tol target v ds).base := by
      rcases le_total v.base.pos target with hh | hh
      · exact ⟨by linarith [hw.1, (i1 hh).1], by linarith [(i1 hh).2]⟩
      · exact ⟨by linarith [(i2 hh).1], by linarith [hw.2, (i2 hh).2]⟩
    rw [targeted_snoc, target_step t1 t2 hw' (by rw [t3]; exact hs) tol target ht1 ht2 hdd, t3]
    obtain ⟨p, hpp⟩ : ∃ p, p = (targeted tol target v ds).base.pos := ⟨_, rfl⟩
    rw [← hpp] at i1 i2 i3 ⊢
    by_cases hc : |target - p| < tol
    · rw [if_pos hc]
      exact ⟨i1, i2, Or.inl hc⟩
    · rw [if_neg hc]
      obtain ⟨k1, k2, k3⟩ := clip_dist (x := target - p) hl
      obtain ⟨q, hq⟩ : ∃ q, q = clip (-(v.cmdScale * d)) (v.cmdScale * d) (target - p) := ⟨_, rfl⟩
      rw [← hq] at k1 k2 k3 ⊢
      refine ⟨fun hh => ?_, fun hh => ?_, Or.inr ?_⟩
      · obtain ⟨a, b⟩ := i1 hh
        obtain ⟨e, f⟩ := k2 (by linarith)
        constructor <;> linarith
      · obtain ⟨a, b⟩ := i2 hh
        obtain ⟨e, f⟩ := k3 (by linarith)
        constructor <;> linarith
      · have hz : target - (p + q) = target - p - q := by ring
        rw [hz, k1]
        rcases i3 with i3 | i3
        · exact absurd i3 hc
        · rw [i3, List.sum_append, List.sum_singleton, mul_add]
          rcases le_total 0 (|target - v.base.pos| - v.cmdScale * ds.sum) with g | g
          · rw [max_eq_right g]; congr 1; ring
          · rw [max_eq_left g, max_eq_left (by linarith), max_eq_left (by linarith)]

/-- With a reversed drive the position controller drives open, whatever the target. -/
theorem target_reversed {c : PConfig K} {v : Powered K} (h : PSetup c v) (hf : Free v)
    (hs : v.cmdScale < 0) (tol target : K) {d : K} (hd : dblEps < d)
    (ht : ¬ |target - v.base.pos| < tol) :
    (updateTarget v tol v.enabled target v.base.pos d).base.pos
      = clip c.base.minPos c.base.maxPos (v.base.pos + -v.cmdScale * d) := by
  have hd0 : 0 < d := lt_trans dblEps_pos hd
  unfold updateTarget
  rw [pos_command h hf]
  unfold positionCmd
  rw [if_neg ht, if_pos hd]
  have hl : d * v.cmdScale < 0 := mul_neg_of_pos_of_neg hd0 hs
  have hm : limitRange (-(d * v.cmdScale)) (target - v.base.pos) (d * v.cmdScale)
      = -(d * v.cmdScale) := by
    unfold limitRange
    apply max_eq_right
    exact le_trans (min_le_right _ _) (by linarith)
  rw [hm, neg_div, div_self (ne_of_lt hl)]
  congr 1
  ring

/-! ### The T-valve and the dual solenoid valve -/

theorem update_manual {c : Config K} {v : Base K} (h : Setup c v) (hs : Sound v) {p : K}
    (h1 : c.minPos ≤ p) (h2 : p ≤ c.maxPos) :
    (update (setManual v true p)).pos = p ∧ (update (setManual v true p)).manual = true
      ∧ (update (setManual v true p)).manualVal = p ∧ Setup c (update (setManual v true p))
      ∧ Sound (update (setManual v true p)) := by
  refine ⟨?_, rfl, rfl, h, hs⟩
  unfold update
  rw [updatePosition_pos (v := setManual v true p) h]
  have : decided (setManual v true p) (setManual v true p).pos = p := by
    unfold decided setManual
    simp only
    rw [hs.1, hs.2.1, hs.2.2]
  rw [this, clip_of_mem h1 h2]

theorem update_hold {c : Config K} {v : Base K} (h : Setup c v) (hs : Sound v)
    (hm : v.manual = true) (hv : v.manualVal = v.pos) (hw : Within c v) :
    (update v).pos = v.pos ∧ (update v).manual = true ∧ (update v).manualVal = v.pos
      ∧ Setup c (update v) ∧ Sound (update v) := by
  refine ⟨?_, hm, hv, h, hs⟩
  unfold update
  rw [updatePosition_pos h]
  have : decided v v.pos = v.pos := by
    unfold decided
    rw [hs.1, hs.2.1, hm, hs.2.2, hv]
  rw [this, clip_of_mem hw.1 hw.2]

theorem dual_pos {c : Config K} {v : Dual K} (h : Setup c v.base) (hs : v.base.stuck = false)
    (hf : v.base.failTo = false) (hm : v.base.manual = false ∨ v.base.malfManual = true) :
    (updateDual v).base.pos
      = (let o := v.openCmd && !v.openFail
         let s := v.closeCmd && !v.closeFail
         if o = true ∧ s = false then c.maxPos
         else if o = false ∧ s = true then c.minPos
         else match v.latch with
           | .normallyOpen => c.maxPos
           | .normallyClosed => c.minPos
           | .latching => if v.mid ≤ v.base.pos then c.maxPos else c.minPos) := by
  have hlt := h.2.2.1
  have hdec : ∀ p, decided v.base p = p := by
    intro p
    unfold decided
    rw [hs, hf]
    rcases hm with hm | hm
    · rw [hm]
    · rw [hm]; rcases v.base.manual <;> rfl
  have hmx := clip_of_mem (le_of_lt hlt) (le_refl c.maxPos)
  have hmn := clip_of_mem (le_refl c.minPos) (le_of_lt hlt)
  unfold updateDual
  dsimp only
  rw [updatePosition_pos h, hdec, h.1, h.2.1]
  unfold solenoidLoad
  rcases v.openCmd <;> rcases v.openFail <;> rcases v.closeCmd <;> rcases v.closeFail <;>
    rcases v.latch <;> simp [hmx, hmn] <;> split <;> simp [hmx, hmn]

end Gunns.Valve
