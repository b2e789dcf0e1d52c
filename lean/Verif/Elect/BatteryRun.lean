import Verif.Elect.BatteryCharge

/-!
# Histories of a battery
-/

namespace Gunns.Elect

open Gunns.Elements Gunns.Elect.Spec

set_option linter.unusedSectionVars false

variable {K : Type _} [Field K] [LinearOrder K] [IsStrictOrderedRing K]

/-! ## The battery's own runaway state in steps -/

theorem Battery.op_step_run (voc : K → K) (blk : Option K) (dt flux : K) (b : Battery K) :
    (b.op voc (.step blk dt flux)).runFlag = b.runFlag ∧
    (b.op voc (.step blk dt flux)).runTimer = (b.sequenceRunaway dt).runTimer ∧
    (b.op voc (.step blk dt flux)).runCell = (b.sequenceRunaway dt).runCell ∧
    (b.op voc (.step blk dt flux)).runInterval = b.runInterval ∧
    (b.op voc (.step blk dt flux)).runDuration = b.runDuration ∧
    (b.op voc (.step blk dt flux)).cells.length = b.cells.length := by
  obtain ⟨_, _, _, e4, e5, e6, e7⟩ := Battery.sequenceRunaway_same b dt
  have hu : ∀ b' : Battery K, (b'.updateCells voc flux dt).runFlag = b'.runFlag ∧
      (b'.updateCells voc flux dt).runTimer = b'.runTimer ∧
      (b'.updateCells voc flux dt).runCell = b'.runCell ∧
      (b'.updateCells voc flux dt).runInterval = b'.runInterval ∧
      (b'.updateCells voc flux dt).runDuration = b'.runDuration ∧
      (b'.updateCells voc flux dt).cells.length = b'.cells.length := by
    intro b'
    unfold Battery.updateCells
    dsimp only
    split_ifs <;> simp
  obtain ⟨u1, u2, u3, u4, u5, u6⟩ := hu (b.step voc blk dt)
  exact ⟨u1.trans e4, u2, u3, u4.trans e6, u5.trans e5, u6.trans e7⟩

/-- Without the battery's runaway malfunction there is no timer to run. -/
theorem Battery.idle_step {b : Battery K} (hf : b.runFlag = false) (voc : K → K) (blk : Option K)
    (dt flux : K) : (b.op voc (.step blk dt flux)).runFlag = false ∧
      (b.op voc (.step blk dt flux)).runTimer = 0 := by
  obtain ⟨e1, e2, _⟩ := Battery.op_step_run voc blk dt flux b
  refine ⟨e1.trans hf, e2.trans ?_⟩
  unfold Battery.sequenceRunaway
  simp only [hf, if_false, reduceCtorEq]

/-- Steps as operations. -/
def stepOf (p : Option K × K × K) : BattOp K := .step p.1 p.2.1 p.2.2

theorem Battery.dead_run {b : Battery K} (hf : b.runFlag = false) (ht : b.runTimer ≤ 0)
    (hd : ∀ c ∈ b.cells, c.effSoc ≤ dblEps) (voc : K → K) (ps : List (Option K × K × K)) :
    (b.run voc (ps.map stepOf)).cells = b.cells := by
  induction ps generalizing b with
  | nil => rfl
  | cons p ps ih =>
    obtain ⟨k1, k2⟩ := Battery.idle_step hf voc p.1 p.2.1 p.2.2
    have hc : (b.op voc (stepOf p)).cells = b.cells := by
      unfold stepOf
      rw [Battery.step_cells, Battery.sequenceRunaway_idle hf ht, contributing_eq_zero hd]
      rfl
    show ((b.op voc (stepOf p)).run voc (ps.map stepOf)).cells = b.cells
    rw [ih (b := b.op voc (stepOf p)) k1 k2.le (by rw [hc]; exact hd), hc]

/-! ## Charge -/

/-- The step `dt`, `flux` moves every cell of the battery within its limits: there is no thermal
runaway, every cell is disconnected or healthy with some charge, at least one is healthy, and no
healthy one reaches an end of its range. -/
def Spec.Within (dt flux : K) (b : Battery K) : Prop :=
  b.runFlag = false ∧ b.runTimer ≤ 0 ∧ (∃ c ∈ b.cells, Healthy c) ∧
  ∀ c ∈ b.cells, Disconnected c ∨
    (Healthy c ∧ dblEps < c.soc ∧
      0 ≤ socAfter (flux / ((b.cells.filter fun c => ¬c.malfOpen).length : Nat)) dt c ∧
      socAfter (flux / ((b.cells.filter fun c => ¬c.malfOpen).length : Nat)) dt c ≤ 1)

theorem contributing_eq {cells : List (Cell K)}
    (h : ∀ c ∈ cells, Disconnected c ∨ (Healthy c ∧ dblEps < c.soc)) :
    contributing cells = (cells.filter fun c => ¬c.malfOpen).length := by
  unfold contributing
  congr 1
  apply List.filter_congr
  intro c hc
  rcases h c hc with h | ⟨h, hs⟩
  · rw [effSoc_open h, h.1]
    have := dblEps_pos (K := K)
    simp [this.le]
  · rw [effSoc_healthy h, h.1]
    simp [hs]

theorem contributing_pos {cells : List (Cell K)} {c : Cell K} (hc : c ∈ cells)
    (h : dblEps < c.effSoc) : 0 < contributing cells := by
  unfold contributing
  apply List.length_pos_of_mem (a := c)
  exact List.mem_filter.mpr ⟨hc, by simpa using h⟩

theorem Battery.step_balance {b : Battery K} {dt flux : K} (h : Spec.Within dt flux b) (voc : K → K)
    (blk : Option K) :
    stored (b.op voc (.step blk dt flux)).cells = stored b.cells - flux * dt := by
  obtain ⟨hf, ht, ⟨c0, hc0, hh0⟩, hc⟩ := h
  have hcon := contributing_eq fun c hm => (hc c hm).imp id fun k => ⟨k.1, k.2.1⟩
  rw [← hcon] at hc
  have hpos : 0 < contributing b.cells := by
    apply contributing_pos hc0
    rcases hc c0 hc0 with k | k
    · have := hh0.1; rw [k.1] at this; cases this
    · rw [effSoc_healthy k.1]; exact k.2.1
  rw [Battery.step_cells, Battery.sequenceRunaway_idle hf ht, if_pos hpos]
  rw [stored_map_sub _
    (fun c => if c.effSoc > dblEps then flux / (contributing b.cells : Nat) * dt else 0)]
  · rw [sum_indicator]
    have : (contributing b.cells : K) ≠ 0 := by exact_mod_cast hpos.ne'
    field_simp
  · intro c hm
    rcases hc c hm with k | ⟨k1, k2, k3, k4⟩
    · rw [charge_open _ _ _ k, if_neg, sub_zero]
      rw [effSoc_open k]
      exact not_lt.2 dblEps_pos.le
    · rw [charge_after voc k1 k3 k4, if_pos]
      rw [effSoc_healthy k1]
      exact k2

/-- Every step of the history is within the limits. -/
def Spec.WithinRun (voc : K → K) : List (Option K × K × K) → Battery K → Prop
  | [], _ => True
  | p :: ps, b => Spec.Within p.2.1 p.2.2 b ∧ WithinRun voc ps (b.op voc (stepOf p))

theorem Battery.run_balance (voc : K → K) (ps : List (Option K × K × K)) (b : Battery K)
    (h : Spec.WithinRun voc ps b) :
    stored (b.run voc (ps.map stepOf)).cells =
      stored b.cells - (ps.map fun p => p.2.2 * p.2.1).sum := by
  induction ps generalizing b with
  | nil => simp [Battery.run]
  | cons p ps ih =>
    show stored ((b.op voc (stepOf p)).run voc (ps.map stepOf)).cells = _
    rw [ih _ h.2, List.map_cons, List.sum_cons]
    unfold stepOf
    rw [Battery.step_balance h.1]
    ring

theorem Battery.step_bound {b : Battery K} {dt flux : K} (hf : b.runFlag = false)
    (ht : b.runTimer ≤ 0) (hinv : ∀ c ∈ b.cells, 0 ≤ c.soc ∧ c.soc ≤ 1)
    (hc : ∀ c ∈ b.cells, Disconnected c ∨ (Healthy c ∧ dblEps < c.soc)) (voc : K → K)
    (blk : Option K) :
    (0 ≤ flux * dt → stored b.cells - flux * dt ≤ stored (b.op voc (.step blk dt flux)).cells ∧
      stored (b.op voc (.step blk dt flux)).cells ≤ stored b.cells) ∧
    (flux * dt ≤ 0 → stored b.cells ≤ stored (b.op voc (.step blk dt flux)).cells ∧
      stored (b.op voc (.step blk dt flux)).cells ≤ stored b.cells - flux * dt) := by
  rw [Battery.step_cells, Battery.sequenceRunaway_idle hf ht]
  by_cases hpos : 0 < contributing b.cells
  · rw [if_pos hpos]
    have hn : (0 : K) < (contributing b.cells : K) := by exact_mod_cast hpos
    have key : ∀ l : List (Cell K), (∀ c ∈ l, c ∈ b.cells) →
        ∀ f : Cell K → Cell K, f = Cell.updateSoc voc (flux / (contributing b.cells : Nat)) dt →
        (0 ≤ flux * dt → stored l - contributing l * (flux / contributing b.cells * dt) ≤
            stored (l.map f) ∧ stored (l.map f) ≤ stored l) ∧
        (flux * dt ≤ 0 → stored l ≤ stored (l.map f) ∧
            stored (l.map f) ≤ stored l - contributing l * (flux / contributing b.cells * dt)) := by
      intro l hl f hfe
      rw [← sum_indicator]
      unfold stored
      induction l with
      | nil => simp
      | cons c l ih =>
        obtain ⟨i1, i2⟩ := ih (fun x hx => hl x (List.mem_cons_of_mem _ hx))
        simp only [List.map_cons, List.sum_cons]
        have hcm := hl c (List.mem_cons_self ..)
        rcases hc c hcm with k | ⟨k1, k2⟩
        · have e : charge (f c) = charge c := by rw [hfe]; exact charge_open _ _ _ k
          have e' : ¬c.effSoc > dblEps := by rw [effSoc_open k]; exact not_lt.2 dblEps_pos.le
          rw [if_neg e', e]
          exact ⟨fun h => ⟨by linarith [(i1 h).1], by linarith [(i1 h).2]⟩,
            fun h => ⟨by linarith [(i2 h).1], by linarith [(i2 h).2]⟩⟩
        · have e' : c.effSoc > dblEps := by rw [effSoc_healthy k1]; exact k2
          rw [if_pos e', hfe]
          obtain ⟨s0, s1⟩ := hinv c hcm
          have hq : flux / (contributing b.cells : K) * dt = flux * dt / (contributing b.cells : K) := by
            ring
          constructor
          · intro h
            have hp : 0 ≤ flux / (contributing b.cells : Nat) * dt := by
              rw [hq]; exact div_nonneg h hn.le
            obtain ⟨c1, c2⟩ := charge_after_discharge voc k1 s0 s1 hp
            obtain ⟨j1, j2⟩ := i1 h
            rw [hfe] at j1 j2
            exact ⟨by linarith, by linarith⟩
          · intro h
            have hp : flux / (contributing b.cells : Nat) * dt ≤ 0 := by
              rw [hq]; exact div_nonpos_of_nonpos_of_nonneg h hn.le
            obtain ⟨c1, c2⟩ := charge_after_charge voc k1 s0 s1 hp
            obtain ⟨j1, j2⟩ := i2 h
            rw [hfe] at j1 j2
            exact ⟨by linarith, by linarith⟩
    have := key b.cells (fun _ h => h) _ rfl
    have e : (contributing b.cells : K) * (flux / (contributing b.cells : K) * dt) = flux * dt := by
      field_simp
    rwa [e] at this
  · rw [if_neg hpos]
    exact ⟨fun h => ⟨by linarith, le_refl _⟩, fun h => ⟨le_refl _, by linarith⟩⟩

/-! ## Runaway of one cell -/

/-- The first steps of a runaway without load at constant voltage. -/
theorem Cell.burn_closed {v dt D : K} (hdt : 0 < dt) (hD : dblEps ≤ D * D) {c : Cell K}
    (h : Burning c) (hd : c.runDuration = D) (h0 : 0 < c.soc) (h1 : c.soc ≤ 1)
    (hp : c.runPower = 0) (k : Nat) :
    (k * (k + 1) * (dt * dt) < D * D →
      (Cell.updateSoc (fun _ => v) 0 dt)^[k] c =
        { c with
          soc := c.soc * (1 - k * (k + 1) * (dt * dt) / (D * D))
          runPower := if k = 0 then 0 else
            k * (2 * (c.soc * Spec.cap c * max dblEps v * 3600) / (D * D)) * dt
          runRate := if k = 0 then c.runRate else
            2 * (c.soc * Spec.cap c * max dblEps v * 3600) / (D * D) }) ∧
    (D * D ≤ k * (k + 1) * (dt * dt) →
      (Cell.updateSoc (fun _ => v) 0 dt)^[k] c =
        { c with
          soc := 0
          runPower := 0
          runRate := 0 }) := by
  have hDD : 0 < D * D := lt_of_lt_of_le dblEps_pos hD
  have hcap : 0 < Spec.cap c := lt_trans dblEps_pos h.2.2.2
  have hv : 0 < max dblEps v := lt_of_lt_of_le dblEps_pos (le_max_left _ _)
  have hdt2 : 0 < dt * dt := mul_pos hdt hdt
  set E := c.soc * Spec.cap c * max dblEps v * 3600 with hE
  have hEpos : 0 < E := by positivity
  induction k with
  | zero =>
    refine ⟨fun _ => ?_, fun hc => ?_⟩
    · simp only [Function.iterate_zero, id_eq, Nat.cast_zero, zero_mul, zero_div, sub_zero, mul_one,
        if_true]
      rw [← hp]
    · rw [Nat.cast_zero, zero_mul, zero_mul] at hc
      exact absurd hc (not_le.2 hDD)
  | succ k ih =>
    rw [Function.iterate_succ_apply']
    by_cases hk : (k : K) * (k + 1) * (dt * dt) < D * D
    · rw [ih.1 hk]
      set c' : Cell K := { c with
          soc := c.soc * (1 - k * (k + 1) * (dt * dt) / (D * D))
          runPower := if k = 0 then 0 else k * (2 * E / (D * D)) * dt
          runRate := if k = 0 then c.runRate else 2 * E / (D * D) } with hc'
      have hb : Burning c' := h
      have hcap' : Spec.cap c' = Spec.cap c := rfl
      have hpos : 0 < c'.soc := by
        show 0 < c.soc * (1 - k * (k + 1) * (dt * dt) / (D * D))
        have : (k : K) * (k + 1) * (dt * dt) / (D * D) < 1 := (div_lt_one hDD).2 hk
        exact mul_pos h0 (by linarith)
      have hup := Cell.updateSoc_burning (fun _ => v) 0 dt hb hpos
      have hrate : (if c'.runPower = 0 then
          2 * (c'.soc * Spec.cap c' * max dblEps v * 3600) / max dblEps (c'.runDuration * c'.runDuration)
          else c'.runRate) = 2 * E / (D * D) := by
        by_cases hk0 : k = 0
        · have e1 : c'.runPower = 0 := by show (if k = 0 then (0 : K) else _) = 0; rw [if_pos hk0]
          have e2 : c'.soc = c.soc := by
            show c.soc * (1 - k * (k + 1) * (dt * dt) / (D * D)) = c.soc
            rw [hk0]; simp
          have e3 : c'.runDuration = D := hd
          rw [if_pos e1, e2, e3, hcap', max_eq_right hD, ← hE]
        · have hkpos : (0 : K) < k := by exact_mod_cast Nat.pos_of_ne_zero hk0
          have e1 : c'.runPower ≠ 0 := by
            show (if k = 0 then (0 : K) else k * (2 * E / (D * D)) * dt) ≠ 0
            rw [if_neg hk0]
            positivity
          rw [if_neg e1]
          show (if k = 0 then c.runRate else _) = _
          rw [if_neg hk0]
      have hpow : c'.runPower + 2 * E / (D * D) * dt = ((k + 1 : Nat) : K) * (2 * E / (D * D)) * dt := by
        show (if k = 0 then (0 : K) else k * (2 * E / (D * D)) * dt) + _ = _
        split_ifs with hk0
        · rw [hk0]; push_cast; ring
        · push_cast; ring
      have hsoc : c'.soc - (0 + ((k + 1 : Nat) : K) * (2 * E / (D * D)) * dt / max dblEps v) * dt /
          Spec.cap c / 3600 =
          c.soc * (1 - ((k + 1 : Nat) : K) * (((k + 1 : Nat) : K) + 1) * (dt * dt) / (D * D)) := by
        show c.soc * (1 - k * (k + 1) * (dt * dt) / (D * D)) - _ = _
        rw [hE]
        push_cast
        field_simp
        ring
      dsimp only at hup
      rw [hrate, hpow, hcap', hsoc] at hup
      rw [hup]
      constructor
      · intro hlt
        have hr : ((k + 1 : Nat) : K) * (((k + 1 : Nat) : K) + 1) * (dt * dt) / (D * D) < 1 :=
          (div_lt_one hDD).2 hlt
        have hr0 : 0 ≤ ((k + 1 : Nat) : K) * (((k + 1 : Nat) : K) + 1) * (dt * dt) / (D * D) := by
          positivity
        have hx0 : 0 < c.soc * (1 - ((k + 1 : Nat) : K) * (((k + 1 : Nat) : K) + 1) * (dt * dt) / (D * D)) :=
          mul_pos h0 (by linarith)
        have hx1 : c.soc * (1 - ((k + 1 : Nat) : K) * (((k + 1 : Nat) : K) + 1) * (dt * dt) / (D * D)) ≤ 1 := by
          calc _ ≤ c.soc * 1 := mul_le_mul_of_nonneg_left (by linarith) h0.le
            _ ≤ 1 := by linarith
        rw [limitRange_of_mem hx0.le hx1, if_neg hx0.ne', if_neg hx0.ne', if_neg (Nat.succ_ne_zero k),
          if_neg (Nat.succ_ne_zero k)]
      · intro hge
        have hr : 1 ≤ ((k + 1 : Nat) : K) * (((k + 1 : Nat) : K) + 1) * (dt * dt) / (D * D) :=
          (one_le_div hDD).2 hge
        have hx0 : c.soc * (1 - ((k + 1 : Nat) : K) * (((k + 1 : Nat) : K) + 1) * (dt * dt) / (D * D)) ≤ 0 :=
          mul_nonpos_of_nonneg_of_nonpos h0.le (by linarith)
        rw [limitRange_of_neg hx0, if_pos rfl, if_pos rfl]
    · rw [ih.2 (not_lt.1 hk)]
      have hmono : D * D ≤ ((k + 1 : Nat) : K) * (((k + 1 : Nat) : K) + 1) * (dt * dt) := by
        have hk0 : (0 : K) ≤ (k : K) := Nat.cast_nonneg k
        have : (k : K) * (k + 1) ≤ ((k + 1 : Nat) : K) * (((k + 1 : Nat) : K) + 1) := by
          push_cast; nlinarith
        exact (not_lt.1 hk).trans (mul_le_mul_of_nonneg_right this hdt2.le)
      refine ⟨fun hlt => absurd hlt (not_lt.2 hmono), fun _ => ?_⟩
      obtain ⟨ho, hsh, hr, hc⟩ := h
      unfold Cell.updateSoc Cell.runaway
      unfold Spec.cap at hc
      simp only [ho, hsh, hr, if_false, reduceCtorEq, if_true]
      rw [if_pos hc]
      simp [limitRange]

/-! ## The sequence of runaways -/

theorem Battery.step_flags (voc : K → K) (blk : Option K) (dt flux : K) (b : Battery K) :
    (b.op voc (.step blk dt flux)).cells.map Cell.runFlag =
      (b.sequenceRunaway dt).cells.map Cell.runFlag := by
  rw [Battery.step_cells]
  split_ifs
  · rw [List.map_map]
    apply List.map_congr_left
    intro c _
    exact (Cell.updateSoc_same voc _ dt c).2.2.2.2.2.2.1
  · rfl

/-- Where the sequence is after `k` steps, when a cell takes `m` steps. -/
structure SeqInv (n m k : Nat) (dt : K) (b : Battery K) : Prop where
  flag : b.runFlag = true
  len : b.cells.length = n
  timer : b.runTimer = ((k % m : Nat) : K) * dt
  cellLe : b.runCell ≤ n
  cell : b.runCell % n = (k / m) % n
  flags : ∀ i, i < n → (b.cells.map Cell.runFlag)[i]? = some (decide (i * m < k))

theorem SeqInv.step {n m k : Nat} {dt : K} {b : Battery K} (h : SeqInv n m k dt b) (hn : 1 ≤ n)
    (hm : 1 ≤ m) (hi : b.runInterval ≤ m * dt)
    (hlt : ∀ j, 1 ≤ j → j < m → (j : K) * dt < b.runInterval) (voc : K → K) (blk : Option K) (flux : K) :
    SeqInv n m (k + 1) dt (b.op voc (.step blk dt flux)) := by
  obtain ⟨hf, hlen, htm, hcl, hce, hfl⟩ := h
  obtain ⟨o1, o2, o3, _, _, o6⟩ := Battery.op_step_run voc blk dt flux b
  have hr : (if b.runCell ≥ b.cells.length then 0 else b.runCell) = (k / m) % n := by
    rw [hlen, ← hce]
    split_ifs with hge
    · rw [le_antisymm hcl hge, Nat.mod_self]
    · exact (Nat.mod_eq_of_lt (not_le.1 hge)).symm
  have hmod := Nat.div_add_mod k m
  have hml : k % m < m := Nat.mod_lt k hm
  have hiff : b.runTimer + dt ≥ b.runInterval ↔ k % m + 1 = m := by
    rw [htm]
    have e : ((k % m : Nat) : K) * dt + dt = ((k % m + 1 : Nat) : K) * dt := by push_cast; ring
    rw [e]
    constructor
    · intro hge
      by_contra hne
      exact absurd (hlt (k % m + 1) (by omega) (by omega)) (not_lt.2 hge)
    · intro he
      rw [he]
      exact hi
  have hseq : (b.sequenceRunaway dt).cells =
        b.cells.modify ((k / m) % n) (Cell.setRunaway true b.runDuration) ∧
      (b.sequenceRunaway dt).runTimer = (if k % m + 1 = m then 0 else b.runTimer + dt) ∧
      (b.sequenceRunaway dt).runCell = (if k % m + 1 = m then (k / m) % n + 1 else (k / m) % n) := by
    rw [← hr]
    unfold Battery.sequenceRunaway
    simp only [hf, if_true]
    by_cases hge : b.runCell ≥ b.cells.length
    · simp only [hge, if_true]
      by_cases hk : k % m + 1 = m
      · rw [if_pos (hiff.2 hk)]; simp [hk]
      · rw [if_neg (fun e => hk (hiff.1 e))]; simp [hk]
    · simp only [hge, if_false]
      by_cases hk : k % m + 1 = m
      · rw [if_pos (hiff.2 hk)]; simp [hk]
      · rw [if_neg (fun e => hk (hiff.1 e))]; simp [hk]
  obtain ⟨s1, s2, s3⟩ := hseq
  have hlr : (k / m) % n < n := Nat.mod_lt _ hn
  have hdiv : (k + 1) / m = if k % m + 1 = m then k / m + 1 else k / m := by
    split_ifs with hk
    · rw [Nat.div_eq_iff (by omega)]
      have : m * (k / m + 1) = m * (k / m) + m := by ring
      constructor
      · rw [mul_comm]; omega
      · rw [mul_comm]; omega
    · rw [Nat.div_eq_iff (by omega)]
      constructor
      · rw [mul_comm]; omega
      · rw [mul_comm]; omega
  have hmod' : (k + 1) % m = if k % m + 1 = m then 0 else k % m + 1 := by
    have h2 := Nat.div_add_mod (k + 1) m
    rw [hdiv] at h2
    split_ifs at h2 ⊢ with hk
    · have : m * (k / m + 1) = m * (k / m) + m := by ring
      omega
    · omega
  refine ⟨o1.trans hf, o6.trans hlen, ?_, ?_, ?_, ?_⟩
  · rw [o2, s2, hmod']
    split_ifs
    · simp
    · rw [htm]; push_cast; ring
  · rw [o3, s3]
    split_ifs <;> omega
  · rw [o3, s3, hdiv]
    split_ifs
    · rw [Nat.add_mod, Nat.mod_mod, ← Nat.add_mod]
    · exact Nat.mod_mod _ _
  · intro i hin
    rw [Battery.step_flags, s1, List.getElem?_map, List.getElem?_modify]
    have hfi := hfl i hin
    rw [List.getElem?_map] at hfi
    cases hg : b.cells[i]? with
    | none => rw [hg] at hfi; cases hfi
    | some c =>
      rw [hg] at hfi
      simp only [Option.map_some, Option.some.injEq] at hfi
      show some _ = some _
      congr 1
      have hdm : k / m * m ≤ k := Nat.div_mul_le_self k m
      split_ifs with he
      · show true = _
        have hle : i ≤ k / m := by rw [← he]; exact Nat.mod_le _ _
        have : i * m ≤ k := (Nat.mul_le_mul_right m hle).trans hdm
        exact (decide_eq_true (by omega)).symm
      · show c.runFlag = _
        rw [hfi]
        congr 1
        apply propext
        constructor
        · intro h; omega
        · intro h
          rcases Nat.lt_or_ge (i * m) k with h' | h'
          · exact h'
          · exfalso
            have hk : k = i * m := by omega
            apply he
            rw [hk, Nat.mul_div_cancel _ hm, Nat.mod_eq_of_lt hin]

theorem SeqInv.run {n m : Nat} {dt : K} (hn : 1 ≤ n) (hm : 1 ≤ m) (voc : K → K)
    (ps : List (Option K × K)) : ∀ {k : Nat} {b : Battery K}, SeqInv n m k dt b →
      b.runInterval ≤ m * dt → (∀ j, 1 ≤ j → j < m → (j : K) * dt < b.runInterval) →
      SeqInv n m (k + ps.length) dt (b.run voc (ps.map fun p => stepOf (p.1, dt, p.2))) := by
  induction ps with
  | nil => intro k b h _ _; exact h
  | cons p ps ih =>
    intro k b h hi hlt
    have h' := h.step hn hm hi hlt voc p.1 p.2
    have e := (Battery.op_step_run voc p.1 dt p.2 b).2.2.2.1
    have := ih h' (by rw [e]; exact hi) (by rw [e]; exact hlt)
    rw [List.length_cons, ← Nat.add_assoc, Nat.add_right_comm]
    exact this

end Gunns.Elect
