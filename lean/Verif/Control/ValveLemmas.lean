import Verif.Control.ValveSpec
import Mathlib.Tactic.Linarith
import Mathlib.Tactic.FieldSimp
import Mathlib.Tactic.Ring
import Mathlib.Tactic.LinearCombination

/-!
# Lemmas about the valve controllers
-/

set_option linter.unusedSectionVars false

namespace Gunns.Valve

open Gunns.Elements
open Gunns.Valve.Spec

variable {K : Type _} [Field K] [LinearOrder K] [IsStrictOrderedRing K]

theorem limitRange_eq_clip {lo hi : K} (h : lo ≤ hi) (x : K) :
    limitRange lo x hi = clip lo hi x := by
  unfold limitRange clip
  by_cases h1 : x < lo
  · rw [if_pos h1, min_eq_left (by linarith), max_eq_right h1.le]
  · rw [if_neg h1]
    by_cases h2 : hi < x
    · rw [if_pos h2, min_eq_right h2.le, max_eq_left h]
    · rw [if_neg h2, min_eq_left (by linarith), max_eq_left (by linarith)]

theorem clip_mem {lo hi : K} (h : lo ≤ hi) (x : K) : lo ≤ clip lo hi x ∧ clip lo hi x ≤ hi := by
  unfold clip
  by_cases h1 : x < lo
  · rw [if_pos h1]; exact ⟨le_refl _, h⟩
  · rw [if_neg h1]
    by_cases h2 : hi < x
    · rw [if_pos h2]; exact ⟨h, le_refl _⟩
    · rw [if_neg h2]; constructor <;> linarith

theorem clip_of_mem {lo hi x : K} (h1 : lo ≤ x) (h2 : x ≤ hi) : clip lo hi x = x := by
  unfold clip
  rw [if_neg (by linarith), if_neg (by linarith)]

theorem clip_low {lo hi x : K} (h : lo ≤ hi) (h1 : x ≤ lo) : clip lo hi x = lo := by
  unfold clip
  by_cases h2 : x < lo
  · rw [if_pos h2]
  · rw [if_neg h2, if_neg (by linarith)]; linarith

theorem clip_high {lo hi x : K} (h : lo ≤ hi) (h1 : hi ≤ x) : clip lo hi x = hi := by
  unfold clip
  rw [if_neg (by linarith)]
  by_cases h2 : hi < x
  · rw [if_pos h2]
  · rw [if_neg h2]; linarith

theorem clip_eq_low {lo hi x : K} (h : lo < hi) : clip lo hi x = lo ↔ x ≤ lo := by
  constructor
  · intro hc
    by_contra hx
    have hx' : lo < x := not_le.mp hx
    unfold clip at hc
    rw [if_neg (by linarith)] at hc
    by_cases h2 : hi < x
    · rw [if_pos h2] at hc; linarith
    · rw [if_neg h2] at hc; linarith
  · exact clip_low h.le

theorem clip_eq_high {lo hi x : K} (h : lo < hi) : clip lo hi x = hi ↔ hi ≤ x := by
  constructor
  · intro hc
    by_contra hx
    have hx' : x < hi := not_le.mp hx
    unfold clip at hc
    by_cases h2 : x < lo
    · rw [if_pos h2] at hc; linarith
    · rw [if_neg h2, if_neg (by linarith)] at hc; linarith
  · exact clip_high h.le

/-- Two moves the same way, one after the other. -/
theorem clip_clip_add {lo hi x a b : K} (h : lo ≤ hi) (h1 : lo ≤ x) (h2 : x ≤ hi)
    (hab : (0 ≤ a ∧ 0 ≤ b) ∨ (a ≤ 0 ∧ b ≤ 0)) :
    clip lo hi (clip lo hi (x + a) + b) = clip lo hi (x + (a + b)) := by
  rcases hab with ⟨ha, hb⟩ | ⟨ha, hb⟩
  · by_cases hx : x + a ≤ hi
    · rw [clip_of_mem (x := x + a) (by linarith) hx, add_assoc]
    · rw [clip_high h (by linarith : hi ≤ x + a), clip_high h (by linarith),
        clip_high h (by linarith)]
  · by_cases hx : lo ≤ x + a
    · rw [clip_of_mem (x := x + a) hx (by linarith), add_assoc]
    · rw [clip_low h (by linarith : x + a ≤ lo), clip_low h (by linarith),
        clip_low h (by linarith)]

theorem pick_eq (v : Base K) (p : K) : pick v p = decided v p := by
  unfold pick decided
  rcases hs : v.stuck with _ | _ <;> rcases hf : v.failTo with _ | _ <;>
    rcases hm : v.manual with _ | _ <;> rcases hn : v.malfManual with _ | _ <;> simp

theorem inRange_true {lo x hi : K} : inRange lo x hi = true ↔ lo ≤ x ∧ x ≤ hi := by
  simp [inRange]

theorem inRange_false {lo x hi : K} : inRange lo x hi = false ↔ ¬ (lo ≤ x ∧ x ≤ hi) := by
  rw [← inRange_true]; simp

/-- What `init` decides. -/
theorem init_cases (c : Config K) (i : Input K) :
    (¬ Accepts c i ∧ init c i = .refused)
      ∨ (Accepts c i ∧ c.minPos = c.maxPos ∧ init c i = .notFinite)
      ∨ (Accepts c i ∧ c.minPos < c.maxPos ∧ ∃ v, init c i = .ok v ∧ v.minPos = c.minPos
          ∧ v.maxPos = c.maxPos
          ∧ v.scale = (c.maxFluid - c.minFluid) / (c.maxPos - c.minPos)
          ∧ v.bias = c.maxFluid - (c.maxFluid - c.minFluid) / (c.maxPos - c.minPos) * c.maxPos
          ∧ v.pos = (if i.manual = true then i.manualVal else i.pos)
          ∧ v.stuck = false ∧ v.failTo = false ∧ v.malfManual = false ∧ v.manual = i.manual
          ∧ v.manualVal = i.manualVal) := by
  by_cases h1 : c.maxFluid ≤ c.minFluid
  · left
    exact ⟨fun h => absurd h.1 (not_lt.mpr h1), by unfold init; rw [if_pos h1]⟩
  by_cases h2 : inRange c.minPos i.pos c.maxPos = false
  · left
    refine ⟨fun h => inRange_false.mp h2 ⟨h.2.1, h.2.2.1⟩, ?_⟩
    unfold init; rw [if_neg h1, if_pos h2]
  have h2' := inRange_true.mp (by simpa using h2 : inRange c.minPos i.pos c.maxPos = true)
  by_cases h3 : i.manual = true ∧ inRange c.minPos i.manualVal c.maxPos = false
  · left
    refine ⟨fun h => inRange_false.mp h3.2 (h.2.2.2 h3.1), ?_⟩
    unfold init; rw [if_neg h1, if_neg h2, if_pos h3]
  have hm : i.manual = true → c.minPos ≤ i.manualVal ∧ i.manualVal ≤ c.maxPos := by
    intro hi
    rw [← inRange_true]
    by_contra hc
    exact h3 ⟨hi, by simpa using hc⟩
  have hacc : Accepts c i := ⟨not_le.mp h1, h2'.1, h2'.2, hm⟩
  right
  by_cases h4 : c.maxPos - c.minPos = 0
  · left
    refine ⟨hacc, by linarith, ?_⟩
    unfold init; rw [if_neg h1, if_neg h2, if_neg h3, if_pos h4]
  · right
    have hlt : c.minPos < c.maxPos :=
      lt_of_le_of_ne (by linarith [h2'.1, h2'.2]) (fun h => h4 (by rw [h]; ring))
    refine ⟨hacc, hlt, _, by unfold init; rw [if_neg h1, if_neg h2, if_neg h3, if_neg h4], rfl, rfl,
      rfl, rfl, ?_, rfl, rfl, rfl, rfl, rfl⟩
    by_cases hi : i.manual = true
    · obtain ⟨ha, hb⟩ := hm hi
      simp only [update, updatePosition, pick, hi]
      simp [limitRange_eq_clip hlt.le, clip_of_mem ha hb]
    · simp only [update, updatePosition, pick, hi]
      simp [limitRange_eq_clip hlt.le, clip_of_mem h2'.1 h2'.2]

/-- The set-up is that of the configuration. -/
def Setup (c : Config K) (v : Base K) : Prop :=
  v.minPos = c.minPos ∧ v.maxPos = c.maxPos ∧ c.minPos < c.maxPos ∧ c.minFluid < c.maxFluid
    ∧ v.scale = (c.maxFluid - c.minFluid) / (c.maxPos - c.minPos)
    ∧ v.bias = c.maxFluid - (c.maxFluid - c.minFluid) / (c.maxPos - c.minPos) * c.maxPos

theorem setup_init {c : Config K} {i : Input K} {v : Base K} (h : init c i = .ok v) : Setup c v := by
  rcases init_cases c i with ⟨_, h1⟩ | ⟨_, _, h1⟩ | ⟨ha, hlt, w, h1, h2, h3, h4, h5, _⟩
  · rw [h1] at h; cases h
  · rw [h1] at h; cases h
  · rw [h1] at h
    cases h
    exact ⟨h2, h3, hlt, ha.1, h4, h5⟩

theorem setup_reach {c : Config K} {v : Base K} (h : Reach c v) : Setup c v := by
  induction h with
  | start i v h => exact setup_init h
  | set v w _ hs ih =>
    obtain ⟨a, b, d, e⟩ := hs
    obtain ⟨i1, i2, i3, i4, i5, i6⟩ := ih
    exact ⟨by rw [a, i1], by rw [b, i2], i3, i4, by rw [e, i5], by rw [d, i6]⟩
  | move v p _ ih => exact ih

theorem updatePosition_pos {c : Config K} {v : Base K} (h : Setup c v) (p : K) :
    (updatePosition v p).pos = clip c.minPos c.maxPos (decided v p) := by
  obtain ⟨h1, h2, h3, _⟩ := h
  show limitRange v.minPos (pick v p) v.maxPos = _
  rw [h1, h2, limitRange_eq_clip h3.le, pick_eq]

theorem fluid_line {c : Config K} (h : c.minPos < c.maxPos) (q : K) :
    c.maxFluid - (c.maxFluid - c.minFluid) / (c.maxPos - c.minPos) * c.maxPos
        + (c.maxFluid - c.minFluid) / (c.maxPos - c.minPos) * q
      = c.minFluid + (q - c.minPos) * (c.maxFluid - c.minFluid) / (c.maxPos - c.minPos) := by
  have hne : c.maxPos - c.minPos ≠ 0 := by
    intro hh; linarith
  field_simp
  ring

theorem updatePosition_fluid {c : Config K} {v : Base K} (h : Setup c v) (p : K) :
    (updatePosition v p).fluid = fluidOf c (updatePosition v p).pos := by
  have hp := updatePosition_pos h p
  obtain ⟨h1, h2, h3, h4, h5, h6⟩ := h
  have he : (updatePosition v p).fluid
      = limitRange 0 (v.bias + v.scale * (updatePosition v p).pos) 1 := rfl
  rw [he, limitRange_eq_clip (by norm_num : (0 : K) ≤ 1), h5, h6, fluid_line h3]
  rfl

/-- The set-up of a powered controller is that of its configuration. -/
def PSetup (c : PConfig K) (v : Powered K) : Prop :=
  Setup c.base v.base ∧ DriveOk c
    ∧ v.cmdScale = (c.base.maxPos - c.base.minPos) / (c.refCmd * c.transit)
    ∧ v.holdPower = c.holdPower ∧ v.movePower = c.movePower ∧ v.stuckPower = c.stuckPower
    ∧ v.holdRes = c.refVoltage * c.refVoltage / c.holdPower
    ∧ v.moveRes = c.refVoltage * c.refVoltage / c.movePower
    ∧ v.stuckRes = c.refVoltage * c.refVoltage / c.stuckPower ∧ v.eot = c.eot
    ∧ v.latch = c.latch

theorem updatePower_same (v : Powered K) :
    SameDrive v (updatePower v) ∧ (updatePower v).base = v.base := by
  unfold updatePower
  by_cases h1 : (v.supply = true ∨ v.powerGood = true) ∧ v.powerFail = false ∧ v.enabled = true
  · rw [if_pos h1]
    by_cases h2 : |v.cmd| > dblEps ∧ (v.base.manual = false ∨ v.base.malfManual = true)
    · rw [if_pos h2]
      split
      · exact ⟨⟨⟨rfl, rfl, rfl, rfl⟩, rfl, rfl, rfl, rfl, rfl, rfl, rfl, rfl, rfl⟩, rfl⟩
      · exact ⟨⟨⟨rfl, rfl, rfl, rfl⟩, rfl, rfl, rfl, rfl, rfl, rfl, rfl, rfl, rfl⟩, rfl⟩
    · rw [if_neg h2]
      exact ⟨⟨⟨rfl, rfl, rfl, rfl⟩, rfl, rfl, rfl, rfl, rfl, rfl, rfl, rfl, rfl⟩, rfl⟩
  · rw [if_neg h1]
    exact ⟨⟨⟨rfl, rfl, rfl, rfl⟩, rfl, rfl, rfl, rfl, rfl, rfl, rfl, rfl, rfl⟩, rfl⟩

theorem updatePower_flags (v : Powered K) :
    (updatePower v).supply = v.supply ∧ (updatePower v).powerGood = v.powerGood
      ∧ (updatePower v).powerFail = v.powerFail ∧ (updatePower v).enabled = v.enabled
      ∧ (updatePower v).driveStuck = v.driveStuck ∧ (updatePower v).driveFailTo = v.driveFailTo
      ∧ (updatePower v).cmd = v.cmd ∧ (updatePower v).driveFailVal = v.driveFailVal := by
  unfold updatePower
  by_cases h1 : (v.supply = true ∨ v.powerGood = true) ∧ v.powerFail = false ∧ v.enabled = true
  · rw [if_pos h1]
    by_cases h2 : |v.cmd| > dblEps ∧ (v.base.manual = false ∨ v.base.malfManual = true)
    · rw [if_pos h2]
      split
      · exact ⟨rfl, rfl, rfl, rfl, rfl, rfl, rfl, rfl⟩
      · exact ⟨rfl, rfl, rfl, rfl, rfl, rfl, rfl, rfl⟩
    · rw [if_neg h2]
      exact ⟨rfl, rfl, rfl, rfl, rfl, rfl, rfl, rfl⟩
  · rw [if_neg h1]
    exact ⟨rfl, rfl, rfl, rfl, rfl, rfl, rfl, rfl⟩

theorem updatePowered_base (v : Powered K) (dt : K) :
    (updatePowered v dt).base = updatePosition v.base (drivePosition v dt) := by
  show updatePosition (updatePower v).base _ = _
  rw [(updatePower_same v).2]

theorem updatePowered_same (v : Powered K) (dt : K) : SameDrive v (updatePowered v dt) := by
  obtain ⟨⟨_, h2⟩, hb⟩ := updatePower_same v
  refine ⟨?_, h2⟩
  rw [updatePowered_base]
  exact ⟨rfl, rfl, rfl, rfl⟩

theorem psetup_same {c : PConfig K} {v w : Powered K} (h : PSetup c v) (hs : SameDrive v w) :
    PSetup c w := by
  obtain ⟨⟨a, b, d, e⟩, s1, s2, s3, s4, s5, s6, s7, s8, s9⟩ := hs
  obtain ⟨⟨i1, i2, i3, i4, i5, i6⟩, j1, j2, j3, j4, j5, j6, j7, j8, j9, j10⟩ := h
  exact ⟨⟨by rw [a, i1], by rw [b, i2], i3, i4, by rw [e, i5], by rw [d, i6]⟩, j1, by rw [s1, j2],
    by rw [s2, j3], by rw [s3, j4], by rw [s4, j5], by rw [s5, j6], by rw [s6, j7], by rw [s7, j8],
    by rw [s8, j9], by rw [s9, j10]⟩

theorem psetup_step {c : PConfig K} {v : Powered K} (h : PSetup c v) (dt : K) :
    PSetup c (updatePowered v dt) := psetup_same h (updatePowered_same v dt)

theorem refCmd_range (r : K) : inRange (-dblEps) r dblEps = true ↔ ¬ dblEps < |r| := by
  rw [inRange_true, not_lt, abs_le]

/-- What `initPowered` decides. -/
theorem initPowered_cases (c : PConfig K) (i : PInput K) :
    (¬ Accepts c.base i.base ∧ initPowered c i = .refused)
      ∨ (Accepts c.base i.base ∧ c.base.minPos = c.base.maxPos ∧ initPowered c i = .notFinite)
      ∨ (Accepts c.base i.base ∧ c.base.minPos < c.base.maxPos ∧ ¬ DriveOk c
          ∧ initPowered c i = .refused)
      ∨ (Accepts c.base i.base ∧ c.base.minPos < c.base.maxPos ∧ DriveOk c
          ∧ ∃ v, initPowered c i = .ok v ∧ PSetup c v) := by
  rcases init_cases c.base i.base with ⟨h, h1⟩ | ⟨h, he, h1⟩ | ⟨ha, hlt, w, h1, _⟩
  · left; exact ⟨h, by unfold initPowered; rw [h1]⟩
  · right; left; exact ⟨h, he, by unfold initPowered; rw [h1]⟩
  right; right
  by_cases g1 : c.transit < dblEps
  · left
    exact ⟨ha, hlt, fun hd => absurd hd.1 (not_le.mpr g1), by unfold initPowered; rw [h1]; simp [g1]⟩
  by_cases g2 : inRange (-dblEps) c.refCmd dblEps = true
  · left
    exact ⟨ha, hlt, fun hd => (refCmd_range _).mp g2 hd.2.1,
      by unfold initPowered; rw [h1]; simp [g1, g2]⟩
  by_cases g3 : c.holdPower < dblEps
  · left
    exact ⟨ha, hlt, fun hd => absurd hd.2.2.1 (not_le.mpr g3),
      by unfold initPowered; rw [h1]; simp [g1, g2, g3]⟩
  by_cases g4 : c.stuckPower < dblEps
  · left
    exact ⟨ha, hlt, fun hd => absurd hd.2.2.2.1 (not_le.mpr g4),
      by unfold initPowered; rw [h1]; simp [g1, g2, g3, g4]⟩
  by_cases g5 : c.movePower < dblEps
  · left
    exact ⟨ha, hlt, fun hd => absurd hd.2.2.2.2 (not_le.mpr g5),
      by unfold initPowered; rw [h1]; simp [g1, g2, g3, g4, g5]⟩
  right
  have hd : DriveOk c :=
    ⟨not_lt.mp g1, by by_contra hc; exact g2 ((refCmd_range _).mpr hc), not_lt.mp g3, not_lt.mp g4,
      not_lt.mp g5⟩
  have hset := setup_init h1
  refine ⟨ha, hlt, hd, _, by
    unfold initPowered; rw [h1]; dsimp only
    rw [if_neg g1, if_neg g2, if_neg g3, if_neg g4, if_neg g5], ?_⟩
  refine psetup_step ?_ 0
  exact ⟨hset, hd, by show (w.maxPos - w.minPos) / _ = _; rw [hset.1, hset.2.1], rfl, rfl, rfl, rfl,
    rfl, rfl, rfl, rfl⟩

theorem psetup_reach {c : PConfig K} {v : Powered K} (h : PReach c v) : PSetup c v := by
  induction h with
  | start i v h =>
    rcases initPowered_cases c i with ⟨_, h1⟩ | ⟨_, _, h1⟩ | ⟨_, _, _, h1⟩ | ⟨_, _, _, w, h1, hw⟩
    · rw [h1] at h; cases h
    · rw [h1] at h; cases h
    · rw [h1] at h; cases h
    · rw [h1] at h; cases h; exact hw
  | set v w _ hs ih => exact psetup_same ih hs
  | step v dt _ ih => exact psetup_step ih dt

theorem driveOk_ne {c : PConfig K} (h : DriveOk c) : c.refCmd ≠ 0 ∧ 0 < c.transit := by
  obtain ⟨h1, h2, _⟩ := h
  constructor
  · intro h0
    rw [h0, abs_zero] at h2
    linarith [dblEps_pos (K := K)]
  · linarith [dblEps_pos (K := K)]

theorem live_iff (v : Powered K) :
    (¬ (v.supply = true ∨ v.powerGood = true) ∨ v.powerFail = true ∨ v.enabled = false)
      ↔ ¬ Live v := by
  unfold Live
  rcases v.supply <;> rcases v.powerGood <;> rcases v.powerFail <;> rcases v.enabled <;> simp

theorem drivePosition_live {v : Powered K} (h1 : v.driveStuck = false) (h2 : v.driveFailTo = false)
    (h3 : Live v) (dt : K) : drivePosition v dt = v.base.pos + v.cmd * v.cmdScale * dt := by
  unfold drivePosition
  rw [if_pos h1, if_neg (by rw [h2]; simp), if_neg (by rw [live_iff]; exact not_not.mpr h3),
    if_pos h3.2.2]

theorem drive_scale {c : PConfig K} {v : Powered K} (h : PSetup c v) (cmd dt : K) :
    cmd * v.cmdScale * dt
      = (cmd / c.refCmd) * (dt / c.transit) * (c.base.maxPos - c.base.minPos) := by
  obtain ⟨_, hd, hs, _⟩ := h
  obtain ⟨h1, h2⟩ := driveOk_ne hd
  rw [hs]
  have h2' := ne_of_gt h2
  field_simp

theorem driven_drivePosition {c : PConfig K} {v : Powered K} (h : PSetup c v) (dt : K) :
    Driven v c dt (drivePosition v dt) := by
  refine ⟨fun g => ?_, fun g1 g2 => ?_, fun g1 g2 g3 => ?_, fun g1 g2 g3 => ?_⟩
  · unfold drivePosition; rw [if_neg (by rw [g]; simp)]
  · unfold drivePosition; rw [if_pos g1, if_pos g2]
  · have hl : v.latch = c.latch := h.2.2.2.2.2.2.2.2.2.2
    have he : drivePosition v dt = match v.latch with
        | .normallyClosed => v.base.minPos
        | .normallyOpen => v.base.maxPos
        | .latching => v.base.pos := by
      unfold drivePosition
      rw [if_pos g1, if_neg (by rw [g2]; simp), if_pos ((live_iff v).mpr g3)]
      rcases v.latch <;> rfl
    rw [he, hl]
    refine ⟨fun e => ?_, fun e => ?_, fun e => ?_⟩ <;> rw [e]
    · exact h.1.1
    · exact h.1.2.1
  · rw [drivePosition_live g1 g2 g3, drive_scale h]

theorem decided_free {v : Powered K} (h : Free v) (p : K) : decided v.base p = p := by
  obtain ⟨h1, h2, h3, _⟩ := h
  unfold decided
  rw [h1, h2]
  rcases h3 with h3 | h3
  · rw [h3]
  · rw [h3]
    rcases v.base.manual <;> rfl

theorem free_step {v : Powered K} (h : Free v) (dt : K) : Free (updatePowered v dt) := by
  obtain ⟨h1, h2, h3, h4, h5, h6, h7, h8⟩ := h
  obtain ⟨f1, f2, f3, f4, f5, f6, _, _⟩ := updatePower_flags v
  refine ⟨?_, ?_, ?_, ?_, ?_, ?_, ?_, ?_⟩
  · rw [updatePowered_base]; exact h1
  · rw [updatePowered_base]; exact h2
  · rw [updatePowered_base]; exact h3
  · show (updatePower v).driveStuck = false; rw [f5, h4]
  · show (updatePower v).driveFailTo = false; rw [f6, h5]
  · show (updatePower v).supply = true ∨ (updatePower v).powerGood = true; rw [f1, f2]; exact h6
  · show (updatePower v).powerFail = false; rw [f3, h7]
  · show (updatePower v).enabled = true; rw [f4, h8]

theorem cmd_step (v : Powered K) (dt : K) : (updatePowered v dt).cmd = v.cmd :=
  (updatePower_flags v).2.2.2.2.2.2.1

theorem pos_step {c : PConfig K} {v : Powered K} (h : PSetup c v) (hf : Free v) (dt : K) :
    (updatePowered v dt).base.pos
      = clip c.base.minPos c.base.maxPos (v.base.pos + v.cmd * v.cmdScale * dt) := by
  rw [updatePowered_base, updatePosition_pos h.1, decided_free hf,
    drivePosition_live hf.2.2.2.1 hf.2.2.2.2.1 hf.2.2.2.2.2]

/-- A command held over a number of updates. -/
theorem pos_runs {c : PConfig K} (dts : List K) : ∀ {v : Powered K}, PSetup c v → Free v →
    Within c.base v.base → (∀ d ∈ dts, 0 ≤ d) →
    (runs v dts).base.pos
        = clip c.base.minPos c.base.maxPos (v.base.pos + v.cmd * v.cmdScale * dts.sum) := by
  induction dts with
  | nil =>
    intro v _ _ hw _
    simp only [runs, List.foldl_nil, List.sum_nil, mul_zero, add_zero]
    exact (clip_of_mem hw.1 hw.2).symm
  | cons d ds ih =>
    intro v h hf hw hd
    have hle : c.base.minPos ≤ c.base.maxPos := h.1.2.2.1.le
    have hp := pos_step h hf d
    have hw' : Within c.base (updatePowered v d).base := by
      unfold Within; rw [hp]; exact clip_mem hle _
    have := ih (psetup_step h d) (free_step hf d) hw' (fun x hx => hd x (List.mem_cons_of_mem _ hx))
    have hr : runs v (d :: ds) = runs (updatePowered v d) ds := rfl
    have hsum : 0 ≤ ds.sum := List.sum_nonneg (fun x hx => hd x (List.mem_cons_of_mem _ hx))
    have hd0 : 0 ≤ d := hd d List.mem_cons_self
    rw [hr, this, hp, cmd_step, (updatePowered_same v d).2.1, List.sum_cons, mul_add]
    apply clip_clip_add hle hw.1 hw.2
    rcases le_total 0 (v.cmd * v.cmdScale) with hs | hs
    · left; exact ⟨mul_nonneg hs hd0, mul_nonneg hs hsum⟩
    · right; exact ⟨mul_nonpos_of_nonpos_of_nonneg hs hd0, mul_nonpos_of_nonpos_of_nonneg hs hsum⟩

theorem command_same (v : Powered K) (s e : Bool) (cmd dt : K) :
    SameDrive v (command v s e cmd dt) := updatePowered_same _ dt

theorem scale_sign {c : PConfig K} {v : Powered K} (h : PSetup c v) :
    (0 < v.cmdScale ↔ 0 < c.refCmd) ∧ (v.cmdScale < 0 ↔ c.refCmd < 0) := by
  obtain ⟨⟨_, _, hlt, _⟩, hd, hs, _⟩ := h
  obtain ⟨h1, h2⟩ := driveOk_ne hd
  have hr : 0 < c.base.maxPos - c.base.minPos := by linarith
  rw [hs]
  rcases lt_or_gt_of_ne h1 with hn | hp
  · have hneg : (c.base.maxPos - c.base.minPos) / (c.refCmd * c.transit) < 0 :=
      div_neg_of_pos_of_neg hr (mul_neg_of_neg_of_pos hn h2)
    constructor <;> constructor <;> intro _ <;> linarith
  · have hpos : 0 < (c.base.maxPos - c.base.minPos) / (c.refCmd * c.transit) :=
      div_pos hr (mul_pos hp h2)
    constructor <;> constructor <;> intro _ <;> linarith

end Gunns.Valve
