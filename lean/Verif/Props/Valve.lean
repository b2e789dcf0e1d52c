import Verif.Control.ValveKinds

/-!
# C52: a valve controller keeps its valve between the ends and drives it as it is told

`TsValveController`, `TsPoweredValveController`, `TsOpenCloseValveController`, `TsSpeedValveController`,
`TsPositionValveController`, `TsToggleValveController`, `TsTValveController` and
`TsDualSolenoidValveController`.
-/

namespace Gunns.Props

open Gunns.Valve
open Gunns.Valve.Spec

variable {K : Type _} [Field K] [LinearOrder K] [IsStrictOrderedRing K]

/-- A valve controller starts exactly when its data describe a valve, with one gap: two equal ends pass
the checks and make the scale a division by zero. A started controller has no malfunction and is where the
input data put it. -/
theorem c52_init (c : Config K) (i : Input K) :
    (init c i = .refused ↔ ¬ Accepts c i)
      ∧ (init c i = .notFinite ↔ Accepts c i ∧ c.minPos = c.maxPos)
      ∧ ((∃ v, init c i = .ok v) ↔ Accepts c i ∧ c.minPos < c.maxPos)
      ∧ ∀ v, init c i = .ok v →
          v.pos = (if i.manual = true then i.manualVal else i.pos) ∧ Sound v
            ∧ v.fluid = fluidOf c v.pos := by
  rcases init_cases c i with ⟨h, h1⟩ | ⟨h, he, h1⟩ | ⟨ha, hlt, w, h1, h2, h3, h4, h5, h6, h7, h8, h9, _⟩
  · rw [h1]
    refine ⟨⟨fun _ => h, fun _ => rfl⟩, ⟨fun g => (by cases g), fun g => absurd g.1 h⟩,
      ⟨fun ⟨_, g⟩ => (by cases g), fun g => absurd g.1 h⟩, fun v g => by cases g⟩
  · rw [h1]
    refine ⟨⟨fun g => (by cases g), fun g => absurd h g⟩, ⟨fun _ => ⟨h, he⟩, fun _ => rfl⟩,
      ⟨fun ⟨_, g⟩ => (by cases g), fun g => absurd he (ne_of_lt g.2)⟩, fun v g => by cases g⟩
  · refine ⟨⟨fun g => (by rw [h1] at g; cases g), fun g => absurd ha g⟩,
      ⟨fun g => (by rw [h1] at g; cases g), fun g => absurd g.2 (ne_of_lt hlt)⟩,
      ⟨fun _ => ⟨ha, hlt⟩, fun _ => ⟨w, h1⟩⟩, fun v g => ?_⟩
    have hv : v = w := by rw [h1] at g; cases g; rfl
    subst hv
    refine ⟨h6, ⟨h7, h8, h9⟩, ?_⟩
    have hs := setup_init h1
    have hlast : ∃ b : Base K, v = updatePosition b b.pos ∧ Setup c b := by
      unfold init at h1
      split at h1
      · cases h1
      · split at h1
        · cases h1
        · split at h1
          · cases h1
          · split at h1
            · cases h1
            · injection h1 with h1
              exact ⟨_, h1.symm, rfl, rfl, hlt, ha.1, rfl, rfl⟩
    obtain ⟨b, hb, hbs⟩ := hlast
    rw [hb]
    exact updatePosition_fluid hbs _

/-- A powered valve controller starts exactly when its data describe a valve and a drive. -/
theorem c52_init_powered (c : PConfig K) (i : PInput K) :
    (∃ v, initPowered c i = .ok v)
      ↔ Accepts c.base i.base ∧ c.base.minPos < c.base.maxPos ∧ DriveOk c := by
  rcases initPowered_cases c i with ⟨h, h1⟩ | ⟨_, h, h1⟩ | ⟨_, _, h, h1⟩ | ⟨a, b, d, w, h1, _⟩
  · rw [h1]; exact ⟨fun ⟨_, g⟩ => (by cases g), fun g => absurd g.1 h⟩
  · rw [h1]; exact ⟨fun ⟨_, g⟩ => (by cases g), fun g => absurd h (ne_of_lt g.2.1)⟩
  · rw [h1]; exact ⟨fun ⟨_, g⟩ => (by cases g), fun g => absurd g.2.2 h⟩
  · exact ⟨fun _ => ⟨a, b, d⟩, fun _ => ⟨w, h1⟩⟩

/-- Whatever was set and whatever happened before, an update puts the valve at the position decided by
the first of: stuck, failed, moved by hand, driven; kept between the ends. The flow area fraction is the
straight line through the ends, the limit flags say exactly whether the valve is at an end, and the stuck
flag whether it is stuck or failed. -/
theorem c52_position {c : Config K} {v : Base K} (h : Reach c v) (p : K) :
    let w := updatePosition v p
    w.pos = clip c.minPos c.maxPos (decided v p) ∧ c.minPos ≤ w.pos ∧ w.pos ≤ c.maxPos
      ∧ w.fluid = fluidOf c w.pos ∧ 0 ≤ w.fluid ∧ w.fluid ≤ 1
      ∧ (w.lower = true ↔ w.pos = c.minPos) ∧ (w.upper = true ↔ w.pos = c.maxPos)
      ∧ (w.stuckFlag = true ↔ v.stuck = true ∨ v.failTo = true) := by
  have hs := setup_reach h
  have hp := updatePosition_pos hs p
  have hf := updatePosition_fluid hs p
  have hm := clip_mem hs.2.2.1.le (decided v p)
  have h01 := clip_mem (by norm_num : (0 : K) ≤ 1)
    (c.minFluid + ((updatePosition v p).pos - c.minPos) * (c.maxFluid - c.minFluid)
      / (c.maxPos - c.minPos))
  refine ⟨hp, by rw [hp]; exact hm.1, by rw [hp]; exact hm.2, hf, by rw [hf]; exact h01.1,
    by rw [hf]; exact h01.2, ?_, ?_, ?_⟩
  · rw [hp, clip_eq_low hs.2.2.1, ← pick_eq]
    show decide (pick v p ≤ v.minPos) = true ↔ _
    rw [decide_eq_true_iff, hs.1]
  · rw [hp, clip_eq_high hs.2.2.1, ← pick_eq]
    show decide (v.maxPos ≤ pick v p) = true ↔ _
    rw [decide_eq_true_iff, hs.2.1]
  · show (v.stuck || v.failTo) = true ↔ _
    simp

/-- The flow area fraction at the two ends is the configured one, and a further open valve has no smaller
flow area. -/
theorem c52_fluid {c : Config K} (h1 : c.minPos < c.maxPos) (h2 : c.minFluid < c.maxFluid) :
    fluidOf c c.minPos = clip 0 1 c.minFluid ∧ fluidOf c c.maxPos = clip 0 1 c.maxFluid
      ∧ ∀ p q, p ≤ q → fluidOf c p ≤ fluidOf c q := by
  have hr : 0 < c.maxPos - c.minPos := by linarith
  refine ⟨?_, ?_, fun p q hpq => ?_⟩
  · unfold fluidOf; congr 1; simp
  · unfold fluidOf; congr 1
    rw [mul_comm, mul_div_assoc, div_self (ne_of_gt hr)]; ring
  · have hle : c.minFluid + (p - c.minPos) * (c.maxFluid - c.minFluid) / (c.maxPos - c.minPos)
        ≤ c.minFluid + (q - c.minPos) * (c.maxFluid - c.minFluid) / (c.maxPos - c.minPos) := by
      have : (p - c.minPos) * (c.maxFluid - c.minFluid) ≤ (q - c.minPos) * (c.maxFluid - c.minFluid) :=
        mul_le_mul_of_nonneg_right (by linarith) (by linarith)
      have := div_le_div_of_nonneg_right this hr.le
      linarith
    unfold fluidOf
    rw [← limitRange_eq_clip (by norm_num : (0 : K) ≤ 1),
      ← limitRange_eq_clip (by norm_num : (0 : K) ≤ 1)]
    exact max_le_max (min_le_min hle (le_refl _)) (le_refl _)

/-- An update of a powered controller: the drive position, and then the precedence of the valve. -/
theorem c52_drive {c : PConfig K} {v : Powered K} (h : PReach c v) (dt : K) :
    ∃ p, Driven v c dt p
      ∧ (updatePowered v dt).base.pos = clip c.base.minPos c.base.maxPos (decided v.base p)
      ∧ (updatePowered v dt).base.fluid = fluidOf c.base (updatePowered v dt).base.pos := by
  have hs := psetup_reach h
  refine ⟨drivePosition v dt, driven_drivePosition hs dt, ?_, ?_⟩
  · rw [updatePowered_base]; exact updatePosition_pos hs.1 _
  · rw [updatePowered_base]; exact updatePosition_fluid hs.1 _

/-- A command held while nothing interferes moves the valve at the rate of one full travel per transit
time and reference command, up to the end. -/
theorem c52_travel {c : PConfig K} {v : Powered K} (h : PReach c v) (hf : Free v)
    (hw : Within c.base v.base) (dts : List K) (hd : ∀ d ∈ dts, 0 ≤ d) :
    (runs v dts).base.pos
      = clip c.base.minPos c.base.maxPos
          (v.base.pos
            + (v.cmd / c.refCmd) * (dts.sum / c.transit) * (c.base.maxPos - c.base.minPos)) := by
  have hs := psetup_reach h
  rw [pos_runs dts hs hf hw hd, drive_scale hs]

/-- From closed to open under `k` times the reference command takes the transit time divided by `k`, and
no less; and the same back. -/
theorem c52_transit {c : PConfig K} {v : Powered K} (h : PReach c v) (hf : Free v) {k : K}
    (hk : 0 < k) (dts : List K) (hd : ∀ d ∈ dts, 0 ≤ d) :
    (v.base.pos = c.base.minPos → v.cmd = k * c.refCmd →
        ((runs v dts).base.pos = c.base.maxPos ↔ c.transit / k ≤ dts.sum))
      ∧ (v.base.pos = c.base.maxPos → v.cmd = -(k * c.refCmd) →
        ((runs v dts).base.pos = c.base.minPos ↔ c.transit / k ≤ dts.sum)) := by
  have hs := psetup_reach h
  have hlt := hs.1.2.2.1
  obtain ⟨hr, ht⟩ := driveOk_ne hs.2.1
  obtain ⟨r, hrr⟩ : ∃ r, r = c.base.maxPos - c.base.minPos := ⟨_, rfl⟩
  have hr0 : 0 < r := by rw [hrr]; linarith
  have key : r ≤ k * (dts.sum / c.transit) * r ↔ c.transit / k ≤ dts.sum := by
    rw [le_mul_iff_one_le_left hr0, div_le_iff₀ hk, ← mul_div_assoc, le_div_iff₀ ht, one_mul,
      mul_comm k]
  constructor
  · intro hp hc
    rw [c52_travel h hf ⟨by rw [hp], by rw [hp]; exact hlt.le⟩ dts hd, clip_eq_high hlt, hp, hc,
      mul_div_assoc, div_self hr, mul_one, ← hrr, ← key]
    constructor <;> intro g <;> linarith
  · intro hp hc
    rw [c52_travel h hf ⟨by rw [hp]; exact hlt.le, by rw [hp]⟩ dts hd, clip_eq_low hlt, hp, hc,
      neg_div, mul_div_assoc, div_self hr, mul_one, ← hrr, ← key]
    have hn : -k * (dts.sum / c.transit) * r = -(k * (dts.sum / c.transit) * r) := by ring
    rw [hn]
    constructor <;> intro g <;> linarith

/-- The power drawn: nothing without power, the hold power without a command or with a hand on the valve,
the stuck power when the valve or the drive is stuck or the command pushes past an end, and the move power
otherwise. With power, power times resistance is the square of the reference voltage. -/
theorem c52_power {c : PConfig K} {v : Powered K} (h : PReach c v) (dt : K) :
    let w := updatePowered v dt
    let still := |v.cmd| ≤ dblEps ∨ (v.base.manual = true ∧ v.base.malfManual = false)
    let blocked := v.base.stuck = true ∨ v.driveStuck = true
      ∨ (v.base.pos ≤ c.base.minPos ∧ v.cmd * c.refCmd < 0)
      ∨ (c.base.maxPos ≤ v.base.pos ∧ 0 < v.cmd * c.refCmd)
    (¬ Live v → w.power = 0 ∧ w.resistance = 1000000)
      ∧ (Live v → still → w.power = c.holdPower)
      ∧ (Live v → ¬ still → blocked → w.power = c.stuckPower)
      ∧ (Live v → ¬ still → ¬ blocked → w.power = c.movePower)
      ∧ (Live v → 0 < w.power ∧ w.power * w.resistance = c.refVoltage ^ 2) := by
  have hs := psetup_reach h
  obtain ⟨p1, p2, p3⟩ := power_cases hs dt
  obtain ⟨_, _, d1, d2, d3⟩ := hs.2.1
  have e0 := dblEps_pos (K := K)
  have hns : ¬ (|v.cmd| ≤ dblEps ∨ (v.base.manual = true ∧ v.base.malfManual = false)) →
      dblEps < |v.cmd| ∧ (v.base.manual = false ∨ v.base.malfManual = true) := by
    intro g
    rw [not_or] at g
    exact ⟨not_le.mp g.1, not_hand g.2⟩
  dsimp only
  refine ⟨p1, fun g g1 => (p2 g g1).1, fun g g1 g2 => ?_, fun g g1 g2 => ?_, fun g => ?_⟩
  · exact ((p3 g (hns g1).1 (hns g1).2).1 g2).1
  · exact ((p3 g (hns g1).1 (hns g1).2).2 g2).1
  · have hmul : ∀ q : K, dblEps ≤ q → 0 < q ∧ q * (c.refVoltage * c.refVoltage / q)
        = c.refVoltage ^ 2 := by
      intro q hq
      have hq0 : 0 < q := lt_of_lt_of_le e0 hq
      refine ⟨hq0, ?_⟩
      rw [mul_div_cancel₀ _ (ne_of_gt hq0)]; ring
    by_cases g1 : |v.cmd| ≤ dblEps ∨ (v.base.manual = true ∧ v.base.malfManual = false)
    · obtain ⟨a, b⟩ := p2 g g1
      rw [a, b]; exact hmul _ d1
    · by_cases g2 : v.base.stuck = true ∨ v.driveStuck = true
          ∨ (v.base.pos ≤ c.base.minPos ∧ v.cmd * c.refCmd < 0)
          ∨ (c.base.maxPos ≤ v.base.pos ∧ 0 < v.cmd * c.refCmd)
      · obtain ⟨a, b⟩ := (p3 g (hns g1).1 (hns g1).2).1 g2
        rw [a, b]; exact hmul _ d2
      · obtain ⟨a, b⟩ := (p3 g (hns g1).1 (hns g1).2).2 g2
        rw [a, b]; exact hmul _ d3

/-- With end of travel switches that tell the truth, interrupting the speed command at the ends changes
nothing about the valve: position, flow area and flags are those of the uninterrupted controller. What it
changes is the power: a drive that is not stuck never draws the stuck power, only nothing, the hold or the
move power. -/
theorem c52_speed_eot {c : PConfig K} {v : Powered K} (h : PReach c v) (he : c.eot = true)
    (hw : Within c.base v.base) (s : Sensed) (hs : Truthful c.base v.base s) (enable : Bool)
    (speed : K) {dt : K} (hdt : 0 ≤ dt) :
    (updateSpeed v enable speed s dt).base = (command v v.supply enable speed dt).base
      ∧ (v.base.stuck = false → v.driveStuck = false →
          (updateSpeed v enable speed s dt).power = 0
            ∨ (updateSpeed v enable speed s dt).power = c.holdPower
            ∨ (updateSpeed v enable speed s dt).power = c.movePower) := by
  have hp := psetup_reach h
  obtain ⟨sp, sn⟩ := scale_sign hp
  have hlt := hp.1.2.2.1
  have hev : v.eot = true := by rw [hp.2.2.2.2.2.2.2.2.2.1, he]
  obtain ⟨t1, t2⟩ := hs
  unfold updateSpeed
  rw [if_pos hev]
  obtain ⟨hr, _⟩ := driveOk_ne hp.2.1
  constructor
  · unfold speedEotCmd
    by_cases g1 : speed > 0 ∧ ((s.opn = true ∧ v.cmdScale > 0) ∨ (s.cls = true ∧ v.cmdScale < 0))
    · rw [if_pos g1]
      refine (command_beyond hp _ _ hdt ?_).symm
      rcases g1.2 with ⟨a, b⟩ | ⟨a, b⟩
      · left; exact ⟨t1.mp a, (mul_pos g1.1 b).le⟩
      · right; exact ⟨t2.mp a, (mul_neg_of_pos_of_neg g1.1 b).le⟩
    · rw [if_neg g1]
      by_cases g2 : speed < 0 ∧ ((s.opn = true ∧ v.cmdScale < 0) ∨ (s.cls = true ∧ v.cmdScale > 0))
      · rw [if_pos g2]
        refine (command_beyond hp _ _ hdt ?_).symm
        rcases g2.2 with ⟨a, b⟩ | ⟨a, b⟩
        · left; exact ⟨t1.mp a, (mul_pos_of_neg_of_neg g2.1 b).le⟩
        · right; exact ⟨t2.mp a, (mul_neg_of_neg_of_pos g2.1 b).le⟩
      · rw [if_neg g2]
  · intro q1 q2
    obtain ⟨cmd, hcmd⟩ : ∃ x, x = speedEotCmd v.cmdScale speed s := ⟨_, rfl⟩
    rw [← hcmd]
    obtain ⟨u, hu⟩ : ∃ u : Powered K, u = { v with
        supply := v.supply
        enabled := enable
        cmd := cmd } := ⟨_, rfl⟩
    have hset : PSetup c u := by rw [hu]; exact hp
    obtain ⟨p1, p2, p3⟩ := power_cases hset dt
    have hc : command v v.supply enable cmd dt = updatePowered u dt := by rw [hu]; rfl
    rw [hc]
    by_cases l : Live u
    · by_cases m : |u.cmd| ≤ dblEps ∨ (u.base.manual = true ∧ u.base.malfManual = false)
      · right; left; exact (p2 l m).1
      · right; right
        rw [not_or] at m
        have m2 : u.base.manual = false ∨ u.base.malfManual = true := not_hand m.2
        refine ((p3 l (not_le.mp m.1) m2).2 ?_).1
        have hub : u.base = v.base := by rw [hu]
        have hud : u.driveStuck = v.driveStuck := by rw [hu]
        have huc : u.cmd = cmd := by rw [hu]
        rw [hub, hud, huc, q1, q2]
        rintro (a | a | ⟨a, b⟩ | ⟨a, b⟩)
        · cases a
        · cases a
        · have hpos : s.cls = true := t2.mpr (le_antisymm a hw.1)
          have : cmd = 0 := by
            rw [hcmd]
            unfold speedEotCmd
            by_cases g1 : speed > 0
                ∧ ((s.opn = true ∧ v.cmdScale > 0) ∨ (s.cls = true ∧ v.cmdScale < 0))
            · rw [if_pos g1]
            · rw [if_neg g1]
              by_cases g2 : speed < 0
                  ∧ ((s.opn = true ∧ v.cmdScale < 0) ∨ (s.cls = true ∧ v.cmdScale > 0))
              · rw [if_pos g2]
              · exfalso
                have hcs : cmd = speed := by
                  rw [hcmd]; unfold speedEotCmd; rw [if_neg g1, if_neg g2]
                rw [hcs] at b
                rcases mul_neg_iff.mp b with ⟨x, y⟩ | ⟨x, y⟩
                · exact g1 ⟨x, Or.inr ⟨hpos, sn.mpr y⟩⟩
                · exact g2 ⟨x, Or.inr ⟨hpos, sp.mpr y⟩⟩
          rw [this, zero_mul] at b
          exact lt_irrefl _ b
        · have hpos : s.opn = true := t1.mpr (le_antisymm hw.2 a)
          have : cmd = 0 := by
            rw [hcmd]
            unfold speedEotCmd
            by_cases g1 : speed > 0
                ∧ ((s.opn = true ∧ v.cmdScale > 0) ∨ (s.cls = true ∧ v.cmdScale < 0))
            · rw [if_pos g1]
            · rw [if_neg g1]
              by_cases g2 : speed < 0
                  ∧ ((s.opn = true ∧ v.cmdScale < 0) ∨ (s.cls = true ∧ v.cmdScale > 0))
              · rw [if_pos g2]
              · exfalso
                have hcs : cmd = speed := by
                  rw [hcmd]; unfold speedEotCmd; rw [if_neg g1, if_neg g2]
                rw [hcs] at b
                rcases mul_pos_iff.mp b with ⟨x, y⟩ | ⟨x, y⟩
                · exact g1 ⟨x, Or.inl ⟨hpos, sp.mpr y⟩⟩
                · exact g2 ⟨x, Or.inl ⟨hpos, sn.mpr y⟩⟩
          rw [this, zero_mul] at b
          exact lt_irrefl _ b
    · left; exact (p1 l).1

/-- Without end of travel interruption an open/close controller with its handle stowed moves toward open
on the open command alone, toward closed on the close command alone, and holds on both or none, if the
reference command is positive. The rate is that of a command of one, so a full travel takes the transit
time multiplied by the reference command. -/
theorem c52_openclose {c : PConfig K} {v : Powered K} (h : PReach c v) (he : c.eot = false)
    (cmd : OpenClose) (henable : cmd.enable = v.enabled) (hf : Free v) (s : Sensed) (dt : K) :
    (updateOpenClose v cmd s none dt).base.pos
      = clip c.base.minPos c.base.maxPos
          (v.base.pos
            + (if cmd.opn = true ∧ cmd.cls = false then 1
               else if cmd.cls = true ∧ cmd.opn = false then -1 else 0)
              * (dt / (c.refCmd * c.transit)) * (c.base.maxPos - c.base.minPos)) := by
  have hp := psetup_reach h
  have hev : v.eot = false := by rw [hp.2.2.2.2.2.2.2.2.2.1, he]
  obtain ⟨h1, h2⟩ := driveOk_ne hp.2.1
  have h2' := ne_of_gt h2
  unfold updateOpenClose
  rw [if_neg (by rw [hev]; simp), henable, pos_command hp hf, drive_scale hp]
  congr 2
  have hx : ∀ x : K, x / c.refCmd * (dt / c.transit) * (c.base.maxPos - c.base.minPos)
      = x * (dt / (c.refCmd * c.transit)) * (c.base.maxPos - c.base.minPos) := by
    intro x; field_simp
  rw [hx]
  congr 2
  unfold openCloseCmd
  rcases cmd with ⟨a, b, d⟩
  rcases b <;> rcases d <;> simp

/-- The open/close controller with a negative reference command is reversed: without end of travel
interruption the open command drives the valve closed. With it, and with truthful switches, an open valve
stays open on either command: the open command is cut because the valve is open, and the close command
pushes it further open. -/
theorem c52_openclose_reversed {c : PConfig K} {v : Powered K} (h : PReach c v) (hr : c.refCmd < 0)
    (hf : Free v) (cmd : OpenClose) (henable : cmd.enable = v.enabled) (s : Sensed) {dt : K}
    (hdt : 0 < dt) :
    (c.eot = false → cmd.opn = true → cmd.cls = false → c.base.minPos < v.base.pos →
        v.base.pos ≤ c.base.maxPos → (updateOpenClose v cmd s none dt).base.pos < v.base.pos)
      ∧ (c.eot = true → v.base.pos = c.base.maxPos → Truthful c.base v.base s →
        (updateOpenClose v cmd s none dt).base.pos = c.base.maxPos) := by
  have hp := psetup_reach h
  have hlt := hp.1.2.2.1
  obtain ⟨_, sn⟩ := scale_sign hp
  have hsc := sn.mpr hr
  constructor
  · intro he ho hc hm1 hm2
    have hev : v.eot = false := by rw [hp.2.2.2.2.2.2.2.2.2.1, he]
    unfold updateOpenClose
    rw [if_neg (by rw [hev]; simp), henable, pos_command hp hf]
    have hcmd : openCloseCmd (K := K) cmd none = 1 := by
      unfold openCloseCmd; rw [if_pos ⟨ho, hc⟩]
    rw [hcmd, one_mul]
    have hneg : v.cmdScale * dt < 0 := mul_neg_of_neg_of_pos hsc hdt
    by_cases g : v.base.pos + v.cmdScale * dt ≤ c.base.minPos
    · rw [clip_low hlt.le g]; exact hm1
    · rw [clip_of_mem (by linarith) (by linarith)]; linarith
  · intro he hpos ht
    have hev : v.eot = true := by rw [hp.2.2.2.2.2.2.2.2.2.1, he]
    unfold updateOpenClose
    rw [if_pos hev, henable, pos_command hp hf, hpos]
    have ho : s.opn = true := ht.1.mpr hpos
    have hnn : 0 ≤ openCloseEotCmd (K := K) cmd s * v.cmdScale * dt := by
      unfold openCloseEotCmd
      rw [if_neg (by rw [ho]; simp)]
      by_cases g : cmd.opn = false ∧ cmd.cls = true ∧ s.cls = false
      · rw [if_pos g]
        have := mul_pos_of_neg_of_neg hsc (neg_neg_of_pos hdt)
        nlinarith
      · rw [if_neg g]; simp
    exact clip_high hlt.le (by linarith)

/-- The toggle command counts the rising edges of the toggle flag among the samples taken while enabled:
given one by one, or in queues of any sizes, with the same result. -/
theorem c52_toggle_edges {dt : K} (hdt : dblEps < dt) (t : Toggle) (ht : t.armed = true)
    (hc : t.count = 0) (qs : List (List (Bool × Bool))) (hq : ∀ q ∈ qs, q ≠ []) :
    (toggleRuns dt t qs.flatten).count = edges false (seen qs.flatten)
      ∧ ∃ u, queueRuns dt t qs = some u ∧ u.count = edges false (seen qs.flatten)
          ∧ u.armed = (toggleRuns dt t qs.flatten).armed := by
  obtain ⟨h1, h2⟩ := toggleRuns_spec dt hdt qs.flatten t
  obtain ⟨u, g1, g2, g3⟩ := queueRuns_spec dt hdt qs hq t
  rw [ht, hc] at h1
  rw [ht, hc] at g2
  refine ⟨by simpa using h1, u, g1, by simpa using g2, ?_⟩
  rw [g3, h2]

/-- A sample toggles the valve exactly when it is a rising edge while enabled: it is enabled and set, and
the last sample seen while enabled was not set, or there was none. -/
theorem c52_toggle_sample {dt : K} (hdt : dblEps < dt) (t : Toggle) (ht : t.armed = true)
    (hist : List (Bool × Bool)) (e g : Bool) :
    (toggleRuns dt t (hist ++ [(e, g)])).toggle = true
      ↔ e = true ∧ g = true ∧ lastOf false (seen hist) = false := by
  have hr : toggleRuns dt t (hist ++ [(e, g)]) = Toggle.update
      { toggleRuns dt t hist with
        enable := e
        toggle := g } dt := by
    simp [toggleRuns]
  obtain ⟨_, h2⟩ := toggleRuns_spec dt hdt hist t
  rw [hr, toggle_step dt hdt, h2, ht]
  rcases e <;> rcases g <;> simp

/-- A toggle moves the valve by the square of its range over the reference command and transit time, away
from the nearer end. So a valve at an end goes to the other end exactly when the range is at least the
product of the reference command and the transit time. -/
theorem c52_toggle_flip {c : PConfig K} {v : Powered K} (h : PReach c v) (hf : Free v) {dt : K}
    (hdt : dblEps < dt) :
    let w := command v v.supply v.enabled (toggleCmd v.base true dt) dt
    (v.base.pos = c.base.minPos →
        (w.base.pos = c.base.maxPos
          ↔ 1 ≤ (c.base.maxPos - c.base.minPos) / (c.refCmd * c.transit)))
      ∧ (v.base.pos = c.base.maxPos →
        (w.base.pos = c.base.minPos
          ↔ 1 ≤ (c.base.maxPos - c.base.minPos) / (c.refCmd * c.transit))) := by
  have hp := psetup_reach h
  have hlt := hp.1.2.2.1
  obtain ⟨r, hr⟩ : ∃ r, r = c.base.maxPos - c.base.minPos := ⟨_, rfl⟩
  have hr0 : 0 < r := by rw [hr]; linarith
  dsimp only
  rw [pos_toggle hp hf hdt, ← hp.2.2.1]
  rw [← hr]
  constructor
  · intro hpos
    rw [if_pos (by rw [hpos]; linarith), clip_eq_high hlt, hpos, ← le_mul_iff_one_le_right hr0]
    constructor <;> intro g <;> linarith
  · intro hpos
    rw [if_neg (by rw [hpos]; linarith), clip_eq_low hlt, hpos, ← le_mul_iff_one_le_right hr0]
    constructor <;> intro g <;> linarith

/-- A closed valve whose range is less than the product of its positive reference command and its transit
time never gets fully open, however often it is toggled. -/
theorem c52_toggle_never {c : PConfig K} {v : Powered K} (h : PReach c v) (hf : Free v)
    (hr : 0 < c.refCmd) (hs : c.base.maxPos - c.base.minPos < c.refCmd * c.transit)
    (hp : v.base.pos = c.base.minPos) (dts : List K) (hd : ∀ d ∈ dts, dblEps < d) :
    (toggled v dts).base.pos < c.base.maxPos := by
  have hset := psetup_reach h
  obtain ⟨sp, _⟩ := scale_sign hset
  have h1 : v.cmdScale < 1 := by
    rw [hset.2.2.1, div_lt_one (mul_pos hr (driveOk_ne hset.2.1).2)]; exact hs
  exact (toggled_small hset hf (sp.mpr hr) h1 hp dts hd).1

/-- The position controller with a positive reference command and a sensor reading the true position
moves the valve toward its target without passing it, and is there, within the tolerance, once the time
taken is enough for the distance at the full rate. -/
theorem c52_target {c : PConfig K} {v : Powered K} (h : PReach c v) (hf : Free v)
    (hw : Within c.base v.base) (hr : 0 < c.refCmd) (tol target : K)
    (ht1 : c.base.minPos ≤ target) (ht2 : target ≤ c.base.maxPos) (dts : List K)
    (hd : ∀ d ∈ dts, dblEps < d) :
    let p := (targeted tol target v dts).base.pos
    (v.base.pos ≤ target → v.base.pos ≤ p ∧ p ≤ target)
      ∧ (target ≤ v.base.pos → target ≤ p ∧ p ≤ v.base.pos)
      ∧ (|target - v.base.pos| / (c.base.maxPos - c.base.minPos) * (c.refCmd * c.transit)
            ≤ dts.sum →
          p = target ∨ |target - p| < tol) := by
  have hset := psetup_reach h
  obtain ⟨sp, _⟩ := scale_sign hset
  obtain ⟨a, b, d⟩ := targeted_spec hset hf hw (sp.mpr hr) tol target ht1 ht2 dts hd
  refine ⟨a, b, fun hsum => ?_⟩
  rcases d with d | d
  · exact Or.inr d
  · left
    have hrt : 0 < c.refCmd * c.transit := mul_pos hr (driveOk_ne hset.2.1).2
    have hrg : 0 < c.base.maxPos - c.base.minPos := by linarith [hset.1.2.2.1]
    have hle : |target - v.base.pos| ≤ v.cmdScale * dts.sum := by
      rw [hset.2.2.1]
      have hm := mul_le_mul_of_nonneg_left hsum (div_pos hrg hrt).le
      have he : (c.base.maxPos - c.base.minPos) / (c.refCmd * c.transit)
          * (|target - v.base.pos| / (c.base.maxPos - c.base.minPos) * (c.refCmd * c.transit))
          = |target - v.base.pos| := by
        have hg : ∀ r t d : K, r ≠ 0 → t ≠ 0 → r / t * (d / r * t) = d := by
          intro r t d h1 h2; field_simp
        exact hg _ _ _ (ne_of_gt hrg) (ne_of_gt hrt)
      rw [he] at hm
      exact hm
    rw [max_eq_left (by linarith)] at d
    have := abs_eq_zero.mp d
    linarith

/-- With a negative reference command the position controller drives the valve open, whatever the
target. -/
theorem c52_target_reversed {c : PConfig K} {v : Powered K} (h : PReach c v) (hf : Free v)
    (hr : c.refCmd < 0) (tol target : K) {dt : K} (hdt : dblEps < dt)
    (ht : tol ≤ |target - v.base.pos|) :
    (updateTarget v tol v.enabled target v.base.pos dt).base.pos
      = clip c.base.minPos c.base.maxPos
          (v.base.pos + (dt / (-c.refCmd * c.transit)) * (c.base.maxPos - c.base.minPos)) := by
  have hset := psetup_reach h
  obtain ⟨_, sn⟩ := scale_sign hset
  obtain ⟨h1, h2⟩ := driveOk_ne hset.2.1
  rw [target_reversed hset hf (sn.mpr hr) tol target hdt (not_lt.mpr ht), hset.2.2.1]
  congr 2
  have := ne_of_gt h2
  field_simp

/-- After any selections, the paths of a T-valve with sound valves are as the last valid selection says:
both closed, or one closed and the other open. -/
theorem c52_tvalve {ca cb : Config K} {a b : Base K} (ha : Reach ca a) (hb : Reach cb b)
    (sa : Sound a) (sb : Sound b) (p : TPos) (hp : p ≠ .other) (ps : List TPos) :
    let w := tRuns (a, b) (p :: ps)
    (selected p ps = .none → w.1.pos = ca.minPos ∧ w.2.pos = cb.minPos)
      ∧ (selected p ps = .aPath → w.1.pos = ca.maxPos ∧ w.2.pos = cb.minPos)
      ∧ (selected p ps = .bPath → w.1.pos = ca.minPos ∧ w.2.pos = cb.maxPos)
      ∧ selected p ps ≠ .other := by
  have key : ∀ (ps : List TPos) (q : TPos) (x y : Base K), Setup ca x → Setup cb y → Sound x →
      Sound y → x.manual = true → y.manual = true → x.manualVal = x.pos → y.manualVal = y.pos →
      q ≠ .other →
      x.pos = (if q = .aPath then ca.maxPos else ca.minPos) →
      y.pos = (if q = .bPath then cb.maxPos else cb.minPos) →
      (tRuns (x, y) ps).1.pos = (if selected q ps = .aPath then ca.maxPos else ca.minPos)
        ∧ (tRuns (x, y) ps).2.pos = (if selected q ps = .bPath then cb.maxPos else cb.minPos)
        ∧ selected q ps ≠ .other := by
    intro ps
    induction ps with
    | nil => intro q x y _ _ _ _ _ _ _ _ hq hx hy; exact ⟨hx, hy, hq⟩
    | cons r rs ih =>
      intro q x y s1 s2 s3 s4 m1 m2 n1 n2 hq hx hy
      have l1 := s1.2.2.1.le
      have l2 := s2.2.2.1.le
      have hmin1 := update_manual s1 s3 (le_refl _) l1
      have hmax1 := update_manual s1 s3 l1 (le_refl _)
      have hmin2 := update_manual s2 s4 (le_refl _) l2
      have hmax2 := update_manual s2 s4 l2 (le_refl _)
      have e1 := s1.1
      have e2 := s1.2.1
      have e3 := s2.1
      have e4 := s2.2.1
      have hr : tRuns (x, y) (r :: rs) = tRuns (updateT r x y) rs := rfl
      rw [hr]
      rcases r with _ | _ | _ | _
      · rw [selected, updateT, e1, e3]
        exact ih .none _ _ hmin1.2.2.2.1 hmin2.2.2.2.1 hmin1.2.2.2.2 hmin2.2.2.2.2 rfl rfl
          hmin1.1.symm hmin2.1.symm (by decide) (by rw [hmin1.1]; simp) (by rw [hmin2.1]; simp)
        simp
      · rw [selected, updateT, e2, e3]
        exact ih .aPath _ _ hmax1.2.2.2.1 hmin2.2.2.2.1 hmax1.2.2.2.2 hmin2.2.2.2.2 rfl rfl
          hmax1.1.symm hmin2.1.symm (by decide) (by rw [hmax1.1]; simp) (by rw [hmin2.1]; simp)
        simp
      · rw [selected, updateT, e1, e4]
        exact ih .bPath _ _ hmin1.2.2.2.1 hmax2.2.2.2.1 hmin1.2.2.2.2 hmax2.2.2.2.2 rfl rfl
          hmin1.1.symm hmax2.1.symm (by decide) (by rw [hmin1.1]; simp) (by rw [hmax2.1]; simp)
        simp
      · rw [selected, updateT]
        have w1 : Within ca x := by
          unfold Within; rw [hx]; by_cases g : q = .aPath
          · rw [if_pos g]; exact ⟨l1, le_refl _⟩
          · rw [if_neg g]; exact ⟨le_refl _, l1⟩
        have w2 : Within cb y := by
          unfold Within; rw [hy]; by_cases g : q = .bPath
          · rw [if_pos g]; exact ⟨l2, le_refl _⟩
          · rw [if_neg g]; exact ⟨le_refl _, l2⟩
        have u1 := update_hold s1 s3 m1 n1 w1
        have u2 := update_hold s2 s4 m2 n2 w2
        exact ih q _ _ u1.2.2.2.1 u2.2.2.2.1 u1.2.2.2.2 u2.2.2.2.2 u1.2.1 u2.2.1
          (by rw [u1.2.2.1, u1.1]) (by rw [u2.2.2.1, u2.1]) hq (by rw [u1.1, hx])
          (by rw [u2.1, hy])
  have s1 := setup_reach ha
  have s2 := setup_reach hb
  have l1 := s1.2.2.1.le
  have l2 := s2.2.2.1.le
  have hmin1 := update_manual s1 sa (le_refl _) l1
  have hmax1 := update_manual s1 sa l1 (le_refl _)
  have hmin2 := update_manual s2 sb (le_refl _) l2
  have hmax2 := update_manual s2 sb l2 (le_refl _)
  have hr : tRuns (a, b) (p :: ps) = tRuns (updateT p a b) ps := rfl
  have hall : (tRuns (updateT p a b) ps).1.pos
        = (if selected p ps = .aPath then ca.maxPos else ca.minPos)
      ∧ (tRuns (updateT p a b) ps).2.pos
        = (if selected p ps = .bPath then cb.maxPos else cb.minPos)
      ∧ selected p ps ≠ .other := by
    rcases p with _ | _ | _ | _
    · rw [updateT, s1.1, s2.1]
      exact key ps .none _ _ hmin1.2.2.2.1 hmin2.2.2.2.1 hmin1.2.2.2.2 hmin2.2.2.2.2 rfl rfl
        hmin1.1.symm hmin2.1.symm (by decide) (by rw [hmin1.1]; simp) (by rw [hmin2.1]; simp)
    · rw [updateT, s1.2.1, s2.1]
      exact key ps .aPath _ _ hmax1.2.2.2.1 hmin2.2.2.2.1 hmax1.2.2.2.2 hmin2.2.2.2.2 rfl rfl
        hmax1.1.symm hmin2.1.symm (by decide) (by rw [hmax1.1]; simp) (by rw [hmin2.1]; simp)
    · rw [updateT, s1.1, s2.2.1]
      exact key ps .bPath _ _ hmin1.2.2.2.1 hmax2.2.2.2.1 hmin1.2.2.2.2 hmax2.2.2.2.2 rfl rfl
        hmin1.1.symm hmax2.1.symm (by decide) (by rw [hmin1.1]; simp) (by rw [hmax2.1]; simp)
    · exact absurd rfl hp
  obtain ⟨k1, k2, k3⟩ := hall
  rw [hr]
  refine ⟨fun g => ?_, fun g => ?_, fun g => ?_, k3⟩ <;> rw [k1, k2, g] <;> simp

/-- A dual solenoid valve is accepted exactly as its valve is and if not both solenoids are commanded; it is
then as `c52_dual` asks, with the commands given. -/
theorem c52_init_dual (c : Config K) (latch : Latch) (i : Input K) (o s : Bool) :
    ((∃ v, initDual c latch i o s = .ok v)
      ↔ Accepts c i ∧ c.minPos < c.maxPos ∧ ¬ (o = true ∧ s = true))
    ∧ ∀ v, initDual c latch i o s = .ok v → Reach c v.base ∧ v.latch = latch ∧ v.openFail = false
      ∧ v.closeFail = false ∧ v.mid = (1 / 2) * (c.maxPos + c.minPos) ∧ v.openCmd = o ∧ v.closeCmd = s := by
  have hi := (c52_init c i).2.2.1
  unfold initDual
  cases h : init c i with
  | refused =>
    refine ⟨⟨(fun ⟨_, g⟩ => by cases g), fun g => ?_⟩, (fun v g => by cases g)⟩
    obtain ⟨v, hv⟩ := hi.2 ⟨g.1, g.2.1⟩
    rw [h] at hv
    cases hv
  | notFinite =>
    refine ⟨⟨(fun ⟨_, g⟩ => by cases g), fun g => ?_⟩, (fun v g => by cases g)⟩
    obtain ⟨v, hv⟩ := hi.2 ⟨g.1, g.2.1⟩
    rw [h] at hv
    cases hv
  | ok b =>
    obtain ⟨a1, a2⟩ := hi.1 ⟨b, h⟩
    by_cases hc : o = true ∧ s = true
    · simp only [if_pos hc]
      exact ⟨⟨(fun ⟨_, g⟩ => by cases g), fun g => absurd hc g.2.2⟩, (fun v g => by cases g)⟩
    · simp only [if_neg hc]
      refine ⟨⟨fun _ => ⟨a1, a2, hc⟩, fun _ => ⟨_, rfl⟩⟩, fun v g => ?_⟩
      have hs := setup_init h
      cases g
      refine ⟨Reach.start i b h, rfl, rfl, rfl, ?_, rfl, rfl⟩
      rw [hs.1, hs.2.1]

/-- A dual solenoid valve with sound solenoids and nothing holding the valve is always at an end after an
update. A latching one is where the last command to one solenoid alone left it, after any commands;
the others fall back to their normal end when neither or both are commanded. -/
theorem c52_dual {c : Config K} {v : Dual K} (h : Reach c v.base)
    (hs : v.base.stuck = false) (hf : v.base.failTo = false)
    (hm : v.base.manual = false ∨ v.base.malfManual = true) (ho : v.openFail = false)
    (hc : v.closeFail = false) (hmid : v.mid = (1 / 2) * (c.maxPos + c.minPos))
    (cmds : List (Bool × Bool)) (o s : Bool) :
    let w := dualRuns v (cmds ++ [(o, s)])
    (v.latch = .latching →
        w.base.pos = if latched (decide (v.mid ≤ v.base.pos)) (cmds ++ [(o, s)]) = true then c.maxPos
          else c.minPos)
      ∧ (v.latch = .normallyOpen →
        w.base.pos = if o = false ∧ s = true then c.minPos else c.maxPos)
      ∧ (v.latch = .normallyClosed →
        w.base.pos = if o = true ∧ s = false then c.maxPos else c.minPos) := by
  have hlt := (setup_reach h).2.2.1
  have hmin : ¬ v.mid ≤ c.minPos := by rw [hmid]; linarith
  have hmax : v.mid ≤ c.maxPos := by rw [hmid]; linarith
  have inv : ∀ cs : List (Bool × Bool), Setup c (dualRuns v cs).base
      ∧ (dualRuns v cs).base.stuck = false ∧ (dualRuns v cs).base.failTo = false
      ∧ ((dualRuns v cs).base.manual = false ∨ (dualRuns v cs).base.malfManual = true)
      ∧ (dualRuns v cs).openFail = false ∧ (dualRuns v cs).closeFail = false
      ∧ (dualRuns v cs).mid = v.mid ∧ (dualRuns v cs).latch = v.latch := by
    intro cs
    induction cs using List.reverseRecOn with
    | nil => exact ⟨setup_reach h, hs, hf, hm, ho, hc, rfl, rfl⟩
    | append_singleton cs d ih =>
      have : dualRuns v (cs ++ [d]) = updateDual
          { dualRuns v cs with
            openCmd := d.1
            closeCmd := d.2 } := by simp [dualRuns]
      rw [this]
      exact ih
  have step : ∀ (cs : List (Bool × Bool)) (d : Bool × Bool), dualRuns v (cs ++ [d]) = updateDual
      { dualRuns v cs with
        openCmd := d.1
        closeCmd := d.2 } := by intro cs d; simp [dualRuns]
  have pos : ∀ (cs : List (Bool × Bool)) (o s : Bool), (dualRuns v (cs ++ [(o, s)])).base.pos
      = if o = true ∧ s = false then c.maxPos
        else if o = false ∧ s = true then c.minPos
        else match v.latch with
          | .normallyOpen => c.maxPos
          | .normallyClosed => c.minPos
          | .latching => if v.mid ≤ (dualRuns v cs).base.pos then c.maxPos else c.minPos := by
    intro cs o s
    obtain ⟨i1, i2, i3, i4, i5, i6, i7, i8⟩ := inv cs
    rw [step]
    rw [dual_pos (v := { dualRuns v cs with
        openCmd := o
        closeCmd := s }) i1 i2 i3 i4]
    dsimp only
    rw [i5, i6, i7, i8]
    rcases v.latch <;> rcases o <;> rcases s <;> simp
  have latched_snoc : ∀ (cs : List (Bool × Bool)) (b o s : Bool), latched b (cs ++ [(o, s)])
      = if o = true ∧ s = false then true else if o = false ∧ s = true then false
        else latched b cs := by
    intro cs
    induction cs with
    | nil => intro b o s; rcases o <;> rcases s <;> rfl
    | cons d ds ih =>
      intro b o s
      obtain ⟨x, y⟩ := d
      rcases x <;> rcases y <;> simp only [List.cons_append, latched, ih]
  dsimp only
  refine ⟨fun hl => ?_, fun hl => ?_, fun hl => ?_⟩
  · have gen : ∀ cs : List (Bool × Bool),
        (v.mid ≤ (dualRuns v cs).base.pos
          ↔ latched (decide (v.mid ≤ v.base.pos)) cs = true) := by
      intro cs
      induction cs using List.reverseRecOn with
      | nil => simp [dualRuns, latched]
      | append_singleton cs d ih =>
        obtain ⟨x, y⟩ := d
        rw [pos, latched_snoc, hl]
        dsimp only
        by_cases g1 : x = true ∧ y = false
        · rw [if_pos g1, if_pos g1]; exact ⟨fun _ => rfl, fun _ => hmax⟩
        · rw [if_neg g1, if_neg g1]
          by_cases g2 : x = false ∧ y = true
          · rw [if_pos g2, if_pos g2]; exact ⟨fun hh => absurd hh hmin, fun hh => (by cases hh)⟩
          · rw [if_neg g2, if_neg g2, ← ih]
            by_cases g3 : v.mid ≤ (dualRuns v cs).base.pos
            · rw [if_pos g3]; exact ⟨fun _ => g3, fun _ => hmax⟩
            · rw [if_neg g3]; exact ⟨fun hh => absurd hh hmin, fun hh => absurd hh g3⟩
    rw [pos, latched_snoc, hl]
    dsimp only
    by_cases g1 : o = true ∧ s = false
    · rw [if_pos g1, if_pos g1]; rfl
    · rw [if_neg g1, if_neg g1]
      by_cases g2 : o = false ∧ s = true
      · rw [if_pos g2, if_pos g2]; rfl
      · rw [if_neg g2, if_neg g2]
        have hg := gen cmds
        by_cases g3 : v.mid ≤ (dualRuns v cmds).base.pos
        · rw [if_pos g3, if_pos (hg.mp g3)]
        · rw [if_neg g3, if_neg (fun hh => g3 (hg.mpr hh))]
  · rw [pos, hl]
    rcases o <;> rcases s <;> simp
  · rw [pos, hl]
    rcases o <;> rcases s <;> simp

/-! ### Cases -/

/-- A valve of range one with a transit time of five seconds. -/
def valveConfig : PConfig ℚ where
  base :=
    { minPos := 0
      maxPos := 1
      minFluid := 0
      maxFluid := 1 }
  transit := 5
  refCmd := 1
  refVoltage := 28
  holdPower := 1
  movePower := 2
  stuckPower := 4
  eot := false
  latch := .latching

/-- The valve closed, with power and the open command. -/
def valveInput : PInput ℚ where
  base :=
    { pos := 0
      manual := false
      manualVal := 0 }
  supply := true
  enabled := true
  cmd := 1

/-- The valve starts, opens in five seconds of updates and no sooner, drawing the move power on the way
and the stuck power when it goes on pushing. -/
example :
    (match initPowered valveConfig valveInput with
     | .ok v => some ((runs v [1, 2, 1]).base.pos, (runs v [1, 2, 1, 1]).base.pos,
         (runs v [1, 2]).power, (runs v [1, 2, 1, 1, 1]).power)
     | _ => none) = some (4 / 5, 1, 2, 4) := by decide +kernel

/-- The same valve toggled eight times never gets past three fifths. -/
example :
    (match initPowered valveConfig valveInput with
     | .ok v => some ([1, 2, 3, 4, 5, 6, 7, 8].map (fun n =>
         (toggled v (List.replicate n (1 : ℚ))).base.pos))
     | _ => none) = some [1 / 5, 2 / 5, 3 / 5, 2 / 5, 3 / 5, 2 / 5, 3 / 5, 2 / 5] := by decide +kernel

/-- A position controller told to close a half open valve with a negative reference command opens it. -/
example :
    (match initPowered
        { valveConfig with
          refCmd := -1 }
        { valveInput with
          base :=
            { pos := 1 / 2
              manual := false
              manualVal := 0 }
          cmd := 0 } with
     | .ok v => some ((targeted (1 / 100) 0 v [1]).base.pos, (targeted (1 / 100) 0 v [1, 1, 1]).base.pos)
     | _ => none) = some (7 / 10, 1) := by decide +kernel

/-- The hypotheses of the theorems hold of the started valve. -/
example : ∃ v, PReach valveConfig v ∧ Free v ∧ Within valveConfig.base v.base
    ∧ v.base.pos = valveConfig.base.minPos ∧ 0 < valveConfig.refCmd
    ∧ valveConfig.base.maxPos - valveConfig.base.minPos < valveConfig.refCmd * valveConfig.transit := by
  obtain ⟨v, hv⟩ : ∃ v, initPowered valveConfig valveInput = .ok v :=
    (c52_init_powered _ _).mpr ⟨by unfold Accepts; decide +kernel, by decide +kernel,
      by unfold DriveOk; decide +kernel⟩
  have hx : (match initPowered valveConfig valveInput with
      | .ok v => decide (Free v ∧ Within valveConfig.base v.base
          ∧ v.base.pos = valveConfig.base.minPos)
      | _ => false) = true := by
    decide +kernel
  rw [hv] at hx
  obtain ⟨a, b, d⟩ := of_decide_eq_true hx
  exact ⟨v, .start _ v hv, a, b, d, by decide +kernel, by decide +kernel⟩

/-- Four samples, the third not enabled: two rising edges among the enabled ones, in whatever queues. -/
example : edges false (seen [(true, true), (true, false), (false, true), (true, true)]) = 2
    ∧ (queueRuns (1 / 10 : ℚ)
        { enable := true
          toggle := false
          armed := true
          count := 0 }
        [[(true, true), (true, false)], [(false, true)], [(true, true)]]).map (·.count) = some 2 := by
  decide +kernel

/-- A T-valve set to the A path, then given an invalid selection, then set to the B path. -/
example :
    (match init valveConfig.base valveInput.base with
     | .ok v => some ((tRuns (v, v) [.aPath, .other]).1.pos, (tRuns (v, v) [.aPath, .other]).2.pos,
         (tRuns (v, v) [.aPath, .other, .bPath]).1.pos, (tRuns (v, v) [.aPath, .other, .bPath]).2.pos,
         decide (v.stuck = false ∧ v.failTo = false ∧ v.malfManual = false))
     | _ => none) = some (1, 0, 0, 1, true) := by decide +kernel

/-- A latching dual solenoid valve opened, then given both commands, then closed, then left alone. -/
example :
    (match initDual valveConfig.base .latching valveInput.base false false with
     | .ok v => some ((dualRuns v [(true, false), (true, true)]).base.pos,
         (dualRuns v [(true, false), (true, true), (false, true), (false, false)]).base.pos)
     | _ => none) = some (1, 0) := by decide +kernel

/-- A read past the end of the enable queue. -/
example : Toggle.updateQueue
    { enable := true
      toggle := false
      armed := true
      count := 0 } [false, true] [true] (1 / 10 : ℚ) = none := by decide +kernel

end Gunns.Props
