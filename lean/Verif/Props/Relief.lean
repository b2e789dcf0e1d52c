import Verif.Base.Loop
import Verif.Fluid.ReliefLemmas
import Mathlib.Algebra.Order.Group.Abs
import Mathlib.Tactic.NormNum

/-!
# C63: relief and regulator valves follow their hysteresis
-/

set_option linter.unusedSectionVars false

namespace Gunns.Props

open Gunns.FluidValve Gunns.FluidValve.Spec

variable {K : Type _} [Field K] [LinearOrder K] [IsStrictOrderedRing K]

/-- The pressure that acts on a valve: the difference between the sensing ports, with the biases. -/
def c63pressure (c : Config K) (x : In K) : K :=
  x.p2 - x.p3 + (if x.bias then x.biasValue else 0) - x.setBias - c.inlet0 - c.inlet1 * x.p0

/-- The position of a relief valve after `n` steps. -/
def c63relief (x : Nat → In K) (s : Prv K) (n : Nat) : K := (loop (fun k s => s.reliefStep (x k)) n s).position

/-- The position of a regulator valve after `n` steps. -/
def c63regulator (x : Nat → In K) (s : Prv K) (n : Nat) : K :=
  (loop (fun k s => s.regulatorStep (x k)) n s).position

/-- A curve of a valve that opens when the pressure falls: the broken line through (start, 0), (knee, pop) and
(full, 1), constant outside, for full < start. -/
def c63fall (start full pop scale p : K) : K := curve (-start) (-full) pop scale (-p)

/-- Neither stuck nor failed, and time does not run backwards. -/
def c63free (x : In K) : Prop := 0 ≤ x.dt ∧ x.stuck = false ∧ x.fail = false

/-! ## Initialization -/

private theorem step_if {a : Prop} [Decidable a] {r : Bool} : (if a then false else r) = true ↔ ¬a ∧ r = true := by
  by_cases h : a
  · rw [if_pos h]
    exact ⟨fun h => (by cases h), fun c => absurd h c.1⟩
  · rw [if_neg h]
    exact ⟨fun c => ⟨h, c⟩, fun c => c.2⟩

private theorem base_iff (c : Config K) :
    c.validBase = true ↔ 0 ≤ c.maxCond ∧ (0 ≤ c.expansion ∧ c.expansion ≤ 1) ∧ 0 ≤ c.rate ∧
      (0 ≤ c.position ∧ c.position ≤ 1) ∧ 0 ≤ c.leakRate ∧ 0 ≤ c.wallTemp ∧ (0 ≤ c.failTo ∧ c.failTo ≤ 1) := by
  unfold Config.validBase
  simp only [step_if, not_lt, not_not, and_true]

private theorem some_iff (a b : Bool) (s : Prv K) :
    (if a then if b then some s else none else none).isSome ↔ a = true ∧ b = true := by
  cases a <;> cases b <;> simp

private theorem fltPos : (0 : K) < fltEps := by unfold fltEps; positivity

/-- The initialization of a relief valve succeeds exactly if the base data are in range and reseat, crack and full open
pressures rise by more than the tolerance. -/
theorem c63_init (c : Config K) :
    c.relief.isSome ↔ (0 ≤ c.maxCond ∧ (0 ≤ c.expansion ∧ c.expansion ≤ 1) ∧ 0 ≤ c.rate ∧
      (0 ≤ c.position ∧ c.position ≤ 1) ∧ 0 ≤ c.leakRate ∧ 0 ≤ c.wallTemp ∧ (0 ≤ c.failTo ∧ c.failTo ≤ 1)) ∧
      fltEps ≤ c.reseat ∧ c.reseat + fltEps ≤ c.crack ∧ c.crack + fltEps ≤ c.fullOpen ∧
      (fltEps ≤ c.pop ∧ c.pop ≤ 1 - fltEps) ∧ 1 ≤ c.scale := by
  have h1 : -fltEps < c.reseat - c.crack ↔ ¬(c.reseat + fltEps ≤ c.crack) := by
    rw [not_le]; constructor <;> intro h <;> linarith
  have h2 : -fltEps < c.crack - c.fullOpen ↔ ¬(c.crack + fltEps ≤ c.fullOpen) := by
    rw [not_le]; constructor <;> intro h <;> linarith
  unfold Config.relief
  rw [some_iff, base_iff]
  unfold Config.validRelief
  simp only [h1, h2, step_if, not_lt, not_not, and_true]

/-- The same for a regulator valve, whose pressures are in the opposite order. -/
theorem c63_regulator_init (c : Config K) :
    c.regulator.isSome ↔ (0 ≤ c.maxCond ∧ (0 ≤ c.expansion ∧ c.expansion ≤ 1) ∧ 0 ≤ c.rate ∧
      (0 ≤ c.position ∧ c.position ≤ 1) ∧ 0 ≤ c.leakRate ∧ 0 ≤ c.wallTemp ∧ (0 ≤ c.failTo ∧ c.failTo ≤ 1)) ∧
      fltEps ≤ c.fullOpen ∧ c.fullOpen + fltEps ≤ c.crack ∧ c.crack + fltEps ≤ c.reseat ∧
      (fltEps ≤ c.pop ∧ c.pop ≤ 1 - fltEps) ∧ 1 ≤ c.scale := by
  have h1 : -fltEps < c.fullOpen - c.crack ↔ ¬(c.fullOpen + fltEps ≤ c.crack) := by
    rw [not_le]; constructor <;> intro h <;> linarith
  have h2 : -fltEps < c.crack - c.reseat ↔ ¬(c.crack + fltEps ≤ c.reseat) := by
    rw [not_le]; constructor <;> intro h <;> linarith
  unfold Config.regulator
  rw [some_iff, base_iff]
  unfold Config.validRegulator
  simp only [h1, h2, step_if, not_lt, not_not, and_true]

private theorem relief_eq {c : Config K} {s : Prv K} (h : c.relief = some s) :
    s = c.make (Branch.make c.crack c.fullOpen c.pop c.scale) (Branch.make c.reseat c.fullOpen c.pop c.scale) := by
  unfold Config.relief at h
  split_ifs at h
  exact (Option.some.inj h).symm

private theorem regulator_eq {c : Config K} {s : Prv K} (h : c.regulator = some s) :
    s = c.make (Branch.make c.reseat c.fullOpen c.pop c.scale) (Branch.make c.crack c.fullOpen c.pop c.scale) := by
  unfold Config.regulator at h
  split_ifs at h
  exact (Option.some.inj h).symm

private theorem relief_wf {c : Config K} {s : Prv K} (h : c.relief = some s) : Relief s := by
  obtain ⟨⟨_, _, hr, ⟨p0, p1⟩, _⟩, _, h1, h2, ⟨h3, h4⟩, h5⟩ := (c63_init c).1 (by rw [h]; rfl)
  have f := fltPos (K := K)
  rw [relief_eq h]
  exact ⟨hr, show c.reseat < c.crack by linarith, show c.crack < c.fullOpen by linarith,
    show 0 < c.pop by linarith, show c.pop < 1 by linarith, h5, rfl, rfl, p0, p1⟩

private theorem regulator_wf {c : Config K} {s : Prv K} (h : c.regulator = some s) : Relief s.mirror := by
  obtain ⟨⟨_, _, hr, ⟨p0, p1⟩, _⟩, _, h1, h2, ⟨h3, h4⟩, h5⟩ := (c63_regulator_init c).1 (by rw [h]; rfl)
  have f := fltPos (K := K)
  rw [regulator_eq h]
  exact ⟨hr, show -c.reseat < -c.crack by linarith, show -c.crack < -c.fullOpen by linarith,
    show 0 < c.pop by linarith, show c.pop < 1 by linarith, h5, flip_make _ _ _ _, flip_make _ _ _ _, p0, p1⟩

/-- Nothing is divided by zero: after the initialization the differences that the code divides by, its slopes and their
inverses have the sign of the direction in which the valve opens. -/
theorem c63_slopes (c : Config K) (s : Prv K) (h : c.relief = some s) :
    (0 < c.fullOpen - c.crack ∧ 0 < c.fullOpen - c.reseat) ∧
      ∀ b, b = s.inc ∨ b = s.dec → 0 < b.popM ∧ 0 < c.fullOpen - b.popP ∧ 0 < b.nomM ∧
        b.popM * b.popMInv = 1 ∧ b.nomM * b.nomMInv = 1 := by
  have hw := relief_wf h
  have e := relief_eq h
  have e1 : s.inc = Branch.make c.crack c.fullOpen c.pop c.scale := by rw [e]; rfl
  have e2 : s.dec = Branch.make c.reseat c.fullOpen c.pop c.scale := by rw [e]; rfl
  have o1 : Ok c.crack c.fullOpen c.pop c.scale := by have := hw.okO; rw [e] at this; exact this
  have o2 : Ok c.reseat c.fullOpen c.pop c.scale := by have := hw.okC; rw [e] at this; exact this
  have key : ∀ start, Ok start c.fullOpen c.pop c.scale →
      0 < (Branch.make start c.fullOpen c.pop c.scale).popM ∧
      0 < c.fullOpen - (Branch.make start c.fullOpen c.pop c.scale).popP ∧
      0 < (Branch.make start c.fullOpen c.pop c.scale).nomM ∧
      (Branch.make start c.fullOpen c.pop c.scale).popM * (Branch.make start c.fullOpen c.pop c.scale).popMInv = 1 ∧
      (Branch.make start c.fullOpen c.pop c.scale).nomM * (Branch.make start c.fullOpen c.pop c.scale).nomMInv = 1 := by
    intro start o
    have k := knee_lt o
    have k1 := o.one
    have a := o.dPos
    have b := o.scPos
    have d : 0 < c.fullOpen - knee start c.fullOpen c.pop c.scale := by linarith
    have d1 : 0 < 1 - c.pop := by linarith
    rw [make_popM o, make_popMInv o, make_popP o, make_nomM o, make_nomMInv o]
    refine ⟨div_pos b a, d, div_pos d1 d, ?_, ?_⟩
    · have := a.ne'
      have := b.ne'
      field_simp
    · have := d.ne'
      have := d1.ne'
      field_simp
  refine ⟨⟨o1.dPos, o2.dPos⟩, ?_⟩
  rintro b (rfl | rfl)
  · rw [e1]
    exact key _ o1
  · rw [e2]
    exact key _ o2

/-! ## Runs -/

/-- What stays the same along a run of a relief valve. -/
private structure Same (c : Config K) (s : Prv K) : Prop where
  wf : Relief s
  rate : s.rate = c.rate
  reseat : s.reseat = c.reseat
  crack : s.crack = c.crack
  full : s.fullOpen = c.fullOpen
  pop : s.pop = c.pop
  scale : s.scale = c.scale
  in0 : s.inlet0 = c.inlet0
  in1 : s.inlet1 = c.inlet1

private theorem Same.step {c : Config K} {s : Prv K} (h : Same c s) (x : In K) (hd : 0 ≤ x.dt) :
    Same c (s.reliefStep x) := by
  obtain ⟨a1, a2, a3, a4, a5, a6, a7, a8, _⟩ := step_config s x
  exact ⟨h.wf.step x hd, a1.trans h.rate, a2.trans h.reseat, a3.trans h.crack, a4.trans h.full, a5.trans h.pop,
    a6.trans h.scale, a7.trans h.in0, a8.trans h.in1⟩

private theorem Same.start {c : Config K} {s : Prv K} (h : c.relief = some s) : Same c s := by
  have hw := relief_wf h
  have e := relief_eq h
  rw [e] at hw ⊢
  exact ⟨hw, rfl, rfl, rfl, rfl, rfl, rfl, rfl, rfl⟩

private theorem Same.run {c : Config K} {s : Prv K} (h : Same c s) (x : Nat → In K) (n : Nat)
    (hd : ∀ k, k < n → 0 ≤ (x k).dt) : Same c (loop (fun k s => s.reliefStep (x k)) n s) :=
  loop_inv (fun _ t => Same c t) n h (fun k hk _ ht => ht.step (x k) (hd k hk))

private theorem Same.pressure {c : Config K} {s : Prv K} (h : Same c s) (x : In K) :
    (s.sensed x).control = c63pressure c x := by
  show (if x.bias then x.p2 - x.p3 + x.biasValue else x.p2 - x.p3) - x.setBias -
    (s.inlet0 + s.inlet1 * x.p0) = _
  unfold c63pressure
  rw [h.in0, h.in1]
  split_ifs <;> ring

private theorem Same.curves {c : Config K} {s : Prv K} (h : Same c s) (x : In K) :
    (s.sensed x).openCurve = curve c.crack c.fullOpen c.pop c.scale ∧
    (s.sensed x).closeCurve = curve c.reseat c.fullOpen c.pop c.scale := by
  rw [← h.crack, ← h.reseat, ← h.full, ← h.pop, ← h.scale]
  exact ⟨rfl, rfl⟩

/-- One free step with state and position in agreement. -/
private theorem one_step {c : Config K} {s : Prv K} (h : Same c s) (hy : s.Synced) (x : In K) (hx : c63free x) :
    (s.reliefStep x).position = toward (c.rate * x.dt) s.position
      (play (curve c.crack c.fullOpen c.pop c.scale) (curve c.reseat c.fullOpen c.pop c.scale) s.position
        (c63pressure c x)) ∧ (s.reliefStep x).Synced := by
  obtain ⟨h1, h2⟩ := free_step h.wf x hx.1 hx.2.1 hx.2.2
  have hs : (s.sensed x).Synced := hy
  have t := target_play (h.wf.sensed x) hs
  rw [t, h.pressure x, (h.curves x).1, (h.curves x).2, h.rate] at h1
  exact ⟨h1, h2 (.inl hy)⟩

/-- Free steps from a state in agreement follow the hysteresis. -/
private theorem follow {c : Config K} {s : Prv K} (h : Same c s) (hy : s.Synced) (x : Nat → In K)
    (n : Nat) (hx : ∀ k, k < n → c63free (x k)) :
    c63relief x s n = track (curve c.crack c.fullOpen c.pop c.scale) (curve c.reseat c.fullOpen c.pop c.scale) c.rate
      s.position (fun k => c63pressure c (x k)) (fun k => (x k).dt) n := by
  have : Same c (loop (fun k s => s.reliefStep (x k)) n s) ∧ (loop (fun k s => s.reliefStep (x k)) n s).Synced ∧
      (loop (fun k s => s.reliefStep (x k)) n s).position =
        track (curve c.crack c.fullOpen c.pop c.scale) (curve c.reseat c.fullOpen c.pop c.scale) c.rate
          s.position (fun k => c63pressure c (x k)) (fun k => (x k).dt) n := by
    refine loop_inv (fun k t => Same c t ∧ t.Synced ∧ t.position =
      track (curve c.crack c.fullOpen c.pop c.scale) (curve c.reseat c.fullOpen c.pop c.scale) c.rate
          s.position (fun k => c63pressure c (x k)) (fun k => (x k).dt) k) n ⟨h, hy, rfl⟩ ?_
    rintro k hk t ⟨h1, h2, h3⟩
    obtain ⟨a, b⟩ := one_step h1 h2 (x k) (hx k hk)
    refine ⟨h1.step (x k) (hx k hk).1, b, ?_⟩
    rw [a, h3]
    rfl
  exact this.2.2

private theorem loop_shift {σ : Type _} (f : Nat → σ → σ) (s : σ) (m n : Nat) :
    loop f (m + n) s = loop (fun k => f (m + k)) n (loop f m s) := by
  induction n with
  | zero => rfl
  | succ n ih =>
    rw [← Nat.add_assoc, loop_succ, loop_succ, ih]

/-- A relief valve that starts closed or fully open follows the hysteresis of its two curves, limited in rate, for
every history of pressures, biases and time steps without a stuck or fail-to malfunction. -/
theorem c63_play (c : Config K) (s : Prv K) (h : c.relief = some s) (h0 : c.position = 0 ∨ c.position = 1)
    (x : Nat → In K) (n : Nat) (hx : ∀ k, k < n → c63free (x k)) :
    c63relief x s n = track (curve c.crack c.fullOpen c.pop c.scale) (curve c.reseat c.fullOpen c.pop c.scale) c.rate
      c.position (fun k => c63pressure c (x k)) (fun k => (x k).dt) n := by
  have e := relief_eq h
  have ep : s.position = c.position := by rw [e]; rfl
  have hy : s.Synced := by
    unfold Prv.Synced
    have es : s.state = startState c.position := by rw [e]; rfl
    rw [es, ep]
    unfold startState
    rcases h0 with h0 | h0
    · rw [h0, if_pos (le_refl _)]
    · rw [h0, if_neg (by norm_num), if_pos (le_refl _)]
  rw [follow (Same.start h) hy x n hx, ep]

/-- Whatever happened before, malfunctions included, a free step that the rate limit does not bind brings the valve
between its two curves. -/
theorem c63_between (c : Config K) (s : Prv K) (h : c.relief = some s) (x : Nat → In K) (n : Nat)
    (hd : ∀ k, k < n → 0 ≤ (x k).dt) (hx : c63free (x n)) (hr : 1 ≤ c.rate * (x n).dt) :
    curve c.crack c.fullOpen c.pop c.scale (c63pressure c (x n)) ≤ c63relief x s (n + 1) ∧
      c63relief x s (n + 1) ≤ curve c.reseat c.fullOpen c.pop c.scale (c63pressure c (x n)) := by
  have hs := (Same.start h).run x n hd
  obtain ⟨t, ht⟩ : ∃ t, t = loop (fun k s => s.reliefStep (x k)) n s := ⟨_, rfl⟩
  have e : c63relief x s (n + 1) = (t.reliefStep (x n)).position := by rw [ht]; rfl
  rw [← ht] at hs
  obtain ⟨h1, _⟩ := free_step hs.wf (x n) hx.1 hx.2.1 hx.2.2
  have b := target_between (hs.wf.sensed (x n))
  rw [hs.pressure, (hs.curves (x n)).1, (hs.curves (x n)).2] at b
  have c1 := cut_mem ((t.sensed (x n)).decided.reliefTarget)
  have p0 := hs.wf.p0
  have p1 := hs.wf.p1
  rw [← hs.rate] at hr
  have f : toward (t.rate * (x n).dt) t.position (max 0 (min 1 (t.sensed (x n)).decided.reliefTarget)) =
      max 0 (min 1 (t.sensed (x n)).decided.reliefTarget) := by
    obtain ⟨u, hu⟩ : ∃ u, u = max 0 (min 1 (t.sensed (x n)).decided.reliefTarget) := ⟨_, rfl⟩
    rw [← hu] at c1 ⊢
    unfold toward
    rw [min_eq_right (by linarith), max_eq_right (by linarith)]
  rw [e, h1, f]
  exact b

/-- After such a step the valve follows its hysteresis again. -/
theorem c63_resume (c : Config K) (s : Prv K) (h : c.relief = some s) (x : Nat → In K) (m n : Nat)
    (hd : ∀ k, k < m → 0 ≤ (x k).dt) (hr : 1 ≤ c.rate * (x m).dt)
    (hx : ∀ k, m ≤ k → k < m + 1 + n → c63free (x k)) :
    c63relief x s (m + 1 + n) = track (curve c.crack c.fullOpen c.pop c.scale)
      (curve c.reseat c.fullOpen c.pop c.scale) c.rate (c63relief x s (m + 1))
      (fun k => c63pressure c (x (m + 1 + k))) (fun k => (x (m + 1 + k)).dt) n := by
  have hs := (Same.start h).run x m hd
  have hm := hx m (le_refl _) (by omega)
  obtain ⟨t, ht⟩ : ∃ t, t = loop (fun k s => s.reliefStep (x k)) m s := ⟨_, rfl⟩
  rw [← ht] at hs
  have e : loop (fun k s => s.reliefStep (x k)) (m + 1) s = t.reliefStep (x m) := by rw [ht]; rfl
  obtain ⟨_, h2⟩ := free_step hs.wf (x m) hm.1 hm.2.1 hm.2.2
  have hy := h2 (.inr (by rw [hs.rate]; exact hr))
  have := follow (hs.step (x m) hm.1) hy (fun k => x (m + 1 + k)) n (fun k hk => hx _ (by omega) (by omega))
  unfold c63relief at this ⊢
  rw [loop_shift, e]
  exact this

/-- The position of a relief valve never leaves 0 to 1. -/
theorem c63_range (c : Config K) (s : Prv K) (h : c.relief = some s) (x : Nat → In K) (n : Nat)
    (hd : ∀ k, k < n → 0 ≤ (x k).dt) : 0 ≤ c63relief x s n ∧ c63relief x s n ≤ 1 :=
  ⟨((Same.start h).run x n hd).wf.p0, ((Same.start h).run x n hd).wf.p1⟩

private theorem toward_rate {d y t : K} (hd : 0 ≤ d) : |toward d y t - y| ≤ d := by
  unfold toward
  rw [abs_le]
  refine ⟨by linarith [le_max_left (y - d) (min (y + d) t)], ?_⟩
  have : max (y - d) (min (y + d) t) ≤ y + d := max_le (by linarith) (min_le_left _ _)
  linarith

/-- No step moves a relief valve faster than its rate limit, unless it is failed to a position; stuck, it does not move
at all, and failed it is at the commanded position at once. -/
theorem c63_rate (c : Config K) (s : Prv K) (h : c.relief = some s) (x : Nat → In K) (n : Nat)
    (hd : ∀ k, k < n + 1 → 0 ≤ (x k).dt) :
    ((x n).stuck = true → c63relief x s (n + 1) = c63relief x s n) ∧
    ((x n).stuck = false → (x n).fail = true → c63relief x s (n + 1) = max 0 (min 1 (x n).failTo)) ∧
    ((x n).stuck = false → (x n).fail = false →
      |c63relief x s (n + 1) - c63relief x s n| ≤ c.rate * (x n).dt) := by
  have hs := (Same.start h).run x n (fun k hk => hd k (by omega))
  obtain ⟨t, ht⟩ : ∃ t, t = loop (fun k s => s.reliefStep (x k)) n s := ⟨_, rfl⟩
  rw [← ht] at hs
  have e : c63relief x s (n + 1) = (t.reliefStep (x n)).position := by rw [ht]; rfl
  have e0 : c63relief x s n = t.position := by rw [ht]; rfl
  rw [e, e0]
  obtain ⟨a, b, d, f⟩ := reliefStep_frame t (x n)
  refine ⟨?_, ?_, ?_⟩
  · intro h1
    rw [f]
    show ((t.sensed (x n)).decided.place (x n) _).position = _
    unfold Prv.place
    rw [if_pos h1]
    rfl
  · intro h1 h2
    rw [f]
    show ((t.sensed (x n)).decided.place (x n) _).position = _
    unfold Prv.place
    rw [if_neg (by rw [h1]; decide), if_pos h2]
    show max (min (x n).failTo 1) 0 = _
    rw [max_comm, min_comm]
  · intro h1 h2
    obtain ⟨g, _⟩ := free_step hs.wf (x n) (hd n (by omega)) h1 h2
    rw [g, ← hs.rate]
    exact toward_rate (mul_nonneg hs.wf.rate (hd n (by omega)))

/-- A relief valve that starts closed stays closed while the pressure is at most the crack pressure. -/
theorem c63_closed (c : Config K) (s : Prv K) (h : c.relief = some s) (h0 : c.position = 0)
    (x : Nat → In K) (n : Nat) (hx : ∀ k, k < n → c63free (x k))
    (hp : ∀ k, k < n → c63pressure c (x k) ≤ c.crack) : c63relief x s n = 0 := by
  rw [c63_play c s h (.inl h0) x n hx, h0]
  have hw := Same.start h
  have o1 : Ok c.crack c.fullOpen c.pop c.scale := by
    have := hw.wf.okO; rw [hw.crack, hw.full, hw.pop, hw.scale] at this; exact this
  have o2 : Ok c.reseat c.fullOpen c.pop c.scale := by
    have := hw.wf.okC; rw [hw.reseat, hw.full, hw.pop, hw.scale] at this; exact this
  have hr : 0 ≤ c.rate := hw.rate ▸ hw.wf.rate
  induction n with
  | zero => rfl
  | succ n ih =>
    unfold track
    rw [ih (fun k hk => hx k (by omega)) (fun k hk => hp k (by omega))]
    unfold play toward
    rw [curve_zero o1 (hp n (by omega)), min_eq_right (curve_nonneg o2 _), max_self]
    have := mul_nonneg hr (hx n (by omega)).1
    rw [min_eq_right (by linarith), max_eq_right (by linarith)]

/-- The initial position of a valve that starts partly open is not held: in the first free step, at a pressure from 0 to
full open, the valve moves to its opening curve, even where the hysteresis would hold it. -/
theorem c63_start_lost (c : Config K) (s : Prv K) (h : c.relief = some s) (h0 : 0 < c.position) (h1 : c.position < 1)
    (x : Nat → In K) (hx : c63free (x 0)) (hr : 1 ≤ c.rate * (x 0).dt) (hp : 0 ≤ c63pressure c (x 0))
    (hf : c63pressure c (x 0) ≤ c.fullOpen) :
    c63relief x s 1 = curve c.crack c.fullOpen c.pop c.scale (c63pressure c (x 0)) := by
  have hs := Same.start h
  have e := relief_eq h
  have es : (s.sensed (x 0)).state = .opening := by
    have : (s.sensed (x 0)).state = startState c.position := by rw [e]; rfl
    rw [this]
    unfold startState
    rw [if_neg (not_le.2 h0), if_neg (not_le.2 h1)]
  have epr : (s.sensed (x 0)).prev = 0 := by rw [e]; rfl
  have efo : (s.sensed (x 0)).fullOpen = c.fullOpen := by rw [e]; rfl
  have est1 : (s.sensed (x 0)).reliefState1 = .opening := by
    unfold Prv.reliefState1
    rw [es]
    show (if (s.sensed (x 0)).control > (s.sensed (x 0)).fullOpen then _ else _) = _
    rw [hs.pressure, epr, efo, if_neg (not_lt.2 hf), if_neg (not_lt.2 hp)]
  have est : (s.sensed (x 0)).decided.state = .opening := by
    show (s.sensed (x 0)).reliefState = _
    unfold Prv.reliefState
    rw [est1, if_neg (by decide)]
  obtain ⟨g, _⟩ := free_step hs.wf (x 0) hx.1 hx.2.1 hx.2.2
  have t := target_cut (hs.wf.sensed (x 0)).decided
  rw [est] at t
  replace t : max 0 (min 1 (s.sensed (x 0)).decided.reliefTarget) = (s.sensed (x 0)).openCurve (s.sensed (x 0)).control :=
    t
  rw [hs.pressure, (hs.curves (x 0)).1] at t
  have c1 := cut_mem ((s.sensed (x 0)).decided.reliefTarget)
  have p0 := hs.wf.p0
  have p1 := hs.wf.p1
  rw [← hs.rate] at hr
  show (s.reliefStep (x 0)).position = _
  rw [g]
  rw [t] at c1 ⊢
  obtain ⟨u, hu⟩ : ∃ u, u = curve c.crack c.fullOpen c.pop c.scale (c63pressure c (x 0)) := ⟨_, rfl⟩
  rw [← hu] at c1 ⊢
  unfold toward
  rw [min_eq_right (by linarith), max_eq_right (by linarith)]

/-! ## Regulator valves -/

/-- The configuration in the mirror. -/
private def flipped (c : Config K) : Config K :=
  { c with
    inlet0 := -c.inlet0
    inlet1 := -c.inlet1
    reseat := -c.reseat
    crack := -c.crack
    fullOpen := -c.fullOpen }

private theorem flipped_start {c : Config K} {s : Prv K} (h : c.regulator = some s) : Same (flipped c) s.mirror := by
  have hw := regulator_wf h
  have e := regulator_eq h
  rw [e] at hw ⊢
  exact ⟨hw, rfl, rfl, rfl, rfl, rfl, rfl, rfl, rfl⟩

private theorem flipped_run {c : Config K} {s : Prv K} (h : Same (flipped c) s.mirror) (x : Nat → In K) (n : Nat)
    (hd : ∀ k, k < n → 0 ≤ (x k).dt) :
    Same (flipped c) (loop (fun k s => s.regulatorStep (x k)) n s).mirror ∧
    (loop (fun k s => s.regulatorStep (x k)) n s).mirror =
      loop (fun k s => s.reliefStep (x k).mirror) n s.mirror := by
  induction n with
  | zero => exact ⟨h, rfl⟩
  | succ n ih =>
    obtain ⟨a, b⟩ := ih (fun k hk => hd k (by omega))
    have e := mirror_step (loop (fun k s => s.regulatorStep (x k)) n s) (x n) a.wf
    rw [loop_succ, loop_succ]
    rw [e, b]
    rw [b] at a
    exact ⟨a.step (x n).mirror (hd n (by omega)), rfl⟩

private theorem flipped_pressure (c : Config K) (x : In K) :
    c63pressure (flipped c) x.mirror = -c63pressure c x := by
  unfold c63pressure
  show x.p3 - x.p2 + (if x.bias then -x.biasValue else 0) - -x.setBias - -c.inlet0 - -c.inlet1 * x.p0 = _
  split_ifs <;> ring

private theorem track_comp (o c : K → K) (rate y : K) (p dt : Nat → K) (n : Nat) :
    track o c rate y (fun k => -p k) dt n = track (fun q => o (-q)) (fun q => c (-q)) rate y p dt n := by
  induction n with
  | zero => rfl
  | succ n ih =>
    unfold track
    rw [ih]
    rfl

private theorem regulator_position {c : Config K} {s : Prv K} (h : c.regulator = some s) (x : Nat → In K) (n : Nat)
    (hd : ∀ k, k < n → 0 ≤ (x k).dt) :
    c63regulator x s n = c63relief (fun k => (x k).mirror) s.mirror n := by
  have := (flipped_run (flipped_start h) x n hd).2
  unfold c63relief
  rw [← this]
  rfl

/-- A regulator valve that starts closed or fully open follows the hysteresis of its two curves, limited in rate. -/
theorem c63_regulator_play (c : Config K) (s : Prv K) (h : c.regulator = some s)
    (h0 : c.position = 0 ∨ c.position = 1) (x : Nat → In K) (n : Nat) (hx : ∀ k, k < n → c63free (x k)) :
    c63regulator x s n = track (c63fall c.crack c.fullOpen c.pop c.scale) (c63fall c.reseat c.fullOpen c.pop c.scale)
      c.rate c.position (fun k => c63pressure c (x k)) (fun k => (x k).dt) n := by
  have e := regulator_eq h
  have ep : s.mirror.position = c.position := by rw [e]; rfl
  have hy : s.mirror.Synced := by
    unfold Prv.Synced
    have es : s.mirror.state = startState c.position := by rw [e]; rfl
    rw [es, ep]
    unfold startState
    rcases h0 with h0 | h0
    · rw [h0, if_pos (le_refl _)]
    · rw [h0, if_neg (by norm_num), if_pos (le_refl _)]
  rw [regulator_position h x n (fun k hk => (hx k hk).1),
    follow (flipped_start h) hy (fun k => (x k).mirror) n (fun k hk => hx k hk), ep]
  simp only [flipped_pressure]
  exact track_comp _ _ _ _ _ _ _

/-- Whatever happened before, a free step that the rate limit does not bind brings a regulator valve between its two
curves, and after it the valve follows its hysteresis again. -/
theorem c63_regulator_resume (c : Config K) (s : Prv K) (h : c.regulator = some s) (x : Nat → In K) (m n : Nat)
    (hd : ∀ k, k < m → 0 ≤ (x k).dt) (hr : 1 ≤ c.rate * (x m).dt)
    (hx : ∀ k, m ≤ k → k < m + 1 + n → c63free (x k)) :
    (c63fall c.crack c.fullOpen c.pop c.scale (c63pressure c (x m)) ≤ c63regulator x s (m + 1) ∧
      c63regulator x s (m + 1) ≤ c63fall c.reseat c.fullOpen c.pop c.scale (c63pressure c (x m))) ∧
    c63regulator x s (m + 1 + n) = track (c63fall c.crack c.fullOpen c.pop c.scale)
      (c63fall c.reseat c.fullOpen c.pop c.scale) c.rate (c63regulator x s (m + 1))
      (fun k => c63pressure c (x (m + 1 + k))) (fun k => (x (m + 1 + k)).dt) n := by
  have hall : ∀ k, k < m + 1 + n → 0 ≤ (x k).dt := by
    intro k hk
    by_cases hkm : k < m
    · exact hd k hkm
    · exact (hx k (by omega) hk).1
  have hm := hx m (le_refl _) (by omega)
  have hs := (flipped_start h).run (fun k => (x k).mirror) m (fun k hk => hd k hk)
  obtain ⟨t, ht⟩ : ∃ t, t = loop (fun k s => s.reliefStep (x k).mirror) m s.mirror := ⟨_, rfl⟩
  rw [← ht] at hs
  have e : loop (fun k s => s.reliefStep (x k).mirror) (m + 1) s.mirror = t.reliefStep (x m).mirror := by rw [ht]; rfl
  obtain ⟨h1, h2⟩ := free_step hs.wf (x m).mirror hm.1 hm.2.1 hm.2.2
  rw [regulator_position h x (m + 1) (fun k hk => hall k (by omega)), regulator_position h x (m + 1 + n) hall]
  constructor
  · have b := target_between (hs.wf.sensed (x m).mirror)
    rw [hs.pressure, (hs.curves (x m).mirror).1, (hs.curves (x m).mirror).2, flipped_pressure] at b
    have c1 := cut_mem ((t.sensed (x m).mirror).decided.reliefTarget)
    have p0 := hs.wf.p0
    have p1 := hs.wf.p1
    have hr' : 1 ≤ t.rate * (x m).mirror.dt := by rw [hs.rate]; exact hr
    have f : toward (t.rate * (x m).mirror.dt) t.position
        (max 0 (min 1 (t.sensed (x m).mirror).decided.reliefTarget)) =
        max 0 (min 1 (t.sensed (x m).mirror).decided.reliefTarget) := by
      obtain ⟨u, hu⟩ : ∃ u, u = max 0 (min 1 (t.sensed (x m).mirror).decided.reliefTarget) := ⟨_, rfl⟩
      rw [← hu] at c1 ⊢
      unfold toward
      rw [min_eq_right (by linarith), max_eq_right (by linarith)]
    unfold c63relief
    rw [e, h1, f]
    exact b
  · have hy := h2 (.inr (by rw [hs.rate]; exact hr))
    have := follow (hs.step (x m).mirror hm.1) hy (fun k => (x (m + 1 + k)).mirror) n
      (fun k hk => hx (m + 1 + k) (by omega) (by omega))
    simp only [flipped_pressure] at this
    rw [track_comp] at this
    unfold c63relief at this ⊢
    rw [loop_shift, e]
    exact this

/-- The position of a regulator valve never leaves 0 to 1, and no free step is faster than the rate limit. -/
theorem c63_regulator_range (c : Config K) (s : Prv K) (h : c.regulator = some s) (x : Nat → In K) (n : Nat)
    (hd : ∀ k, k < n + 1 → 0 ≤ (x k).dt) :
    (0 ≤ c63regulator x s n ∧ c63regulator x s n ≤ 1) ∧
    ((x n).stuck = true → c63regulator x s (n + 1) = c63regulator x s n) ∧
    ((x n).stuck = false → (x n).fail = true → c63regulator x s (n + 1) = max 0 (min 1 (x n).failTo)) ∧
    ((x n).stuck = false → (x n).fail = false →
      |c63regulator x s (n + 1) - c63regulator x s n| ≤ c.rate * (x n).dt) := by
  have hs := (flipped_start h).run (fun k => (x k).mirror) n (fun k hk => hd k (by omega))
  rw [regulator_position h x (n + 1) hd, regulator_position h x n (fun k hk => hd k (by omega))]
  obtain ⟨t, ht⟩ : ∃ t, t = loop (fun k s => s.reliefStep (x k).mirror) n s.mirror := ⟨_, rfl⟩
  rw [← ht] at hs
  have e : c63relief (fun k => (x k).mirror) s.mirror (n + 1) = (t.reliefStep (x n).mirror).position := by rw [ht]; rfl
  have e0 : c63relief (fun k => (x k).mirror) s.mirror n = t.position := by rw [ht]; rfl
  rw [e, e0]
  obtain ⟨a, b, d, f⟩ := reliefStep_frame t (x n).mirror
  refine ⟨⟨hs.wf.p0, hs.wf.p1⟩, ?_, ?_, ?_⟩
  · intro h1
    rw [f]
    show ((t.sensed (x n).mirror).decided.place (x n).mirror _).position = _
    unfold Prv.place
    rw [if_pos (show (x n).mirror.stuck = true from h1)]
    rfl
  · intro h1 h2
    rw [f]
    show ((t.sensed (x n).mirror).decided.place (x n).mirror _).position = _
    unfold Prv.place
    rw [if_neg (by rw [show (x n).mirror.stuck = false from h1]; decide), if_pos (show (x n).mirror.fail = true from h2)]
    show max (min (x n).failTo 1) 0 = _
    rw [max_comm, min_comm]
  · intro h1 h2
    obtain ⟨g, _⟩ := free_step hs.wf (x n).mirror (hd n (by omega)) h1 h2
    rw [g]
    have := toward_rate (y := t.position) (t := max 0 (min 1 (t.sensed (x n).mirror).decided.reliefTarget))
      (mul_nonneg hs.wf.rate (hd n (by omega)))
    rw [hs.rate] at this ⊢
    exact this

/-! ## Concrete cases -/

/-- What a step leaves for the flow: the conductivity of the new position or that of the leak, the larger, less the blocked
fraction. The leak's conductivity is that predicted when its rate was put in, and none without the malfunction. -/
def c63conducts (s s' : Prv K) (x : In K) : Prop :=
  s'.effCond = (1 - if x.block then x.blockage else 0) * max (s.maxCond * s'.position) s'.leakCond ∧
  (x.leak = false → s'.leakCond = 0 ∧ s'.prevLeak = 0) ∧
  (x.leak = true → s'.prevLeak = x.leakRate ∧ s'.leakCond = if s.prevLeak = x.leakRate then s.leakCond else x.predicted)

private theorem c63_conduct_aux (t s : Prv K) (x : In K) (h1 : t.maxCond = s.maxCond) (h2 : t.leakCond = s.leakCond)
    (h3 : t.prevLeak = s.prevLeak) : c63conducts s ((t.conduct x).blocked x) x := by
  unfold c63conducts
  rw [← h1, ← h2, ← h3]
  unfold Prv.conduct Prv.blocked
  cases x.leak <;> cases x.block <;> simp
  · ring
  · split_ifs with h <;> simp [h]
  · split_ifs with h
    · refine ⟨?_, h, rfl⟩
      ring
    · simp
      ring

/-- In every step of a relief or regulator valve, malfunctioning or not. -/
theorem c63_conductivity (s : Prv K) (x : In K) :
    c63conducts s (s.reliefStep x) x ∧ c63conducts s (s.regulatorStep x) x := by
  have place : ∀ (q : Prv K) (target : K), (q.place x target).maxCond = q.maxCond ∧
      (q.place x target).leakCond = q.leakCond ∧ (q.place x target).prevLeak = q.prevLeak := by
    intro q target
    unfold Prv.place Prv.move
    split_ifs <;> exact ⟨rfl, rfl, rfl⟩
  constructor
  · exact c63_conduct_aux _ s x (place _ _).1 (place _ _).2.1 (place _ _).2.2
  · exact c63_conduct_aux _ s x (place _ _).1 (place _ _).2.1 (place _ _).2.2

/-- Reseat 10, crack 12, full open 20, pop 1/4, slope scale 2. -/
def c63config (position rate : ℚ) : Config ℚ :=
  { maxCond := 1
    expansion := 0
    rate := rate
    inlet0 := 0
    inlet1 := 0
    reseat := 10
    crack := 12
    fullOpen := 20
    pop := 1 / 4
    scale := 2
    position := position
    leakRate := 0
    wallTemp := 0
    failTo := 0 }

/-- A second of free motion at a pressure. -/
def c63in (p : ℚ) : In ℚ :=
  { p0 := 0
    p2 := p
    p3 := 0
    dt := 1
    stuck := false
    fail := false
    failTo := 0
    bias := false
    biasValue := 0
    setBias := 0
    leak := false
    leakRate := 0
    predicted := 0
    block := false
    blockage := 0 }

/-- A pressure that rises above the crack pressure, falls a little, rises to the same value and falls to the reseat
pressure. -/
def c63ps : Nat → ℚ := fun k => [11, 13, 12, 13, 11, 9].getD k 0

/-- The valve opens above the crack pressure, holds while the pressure falls a little, and closes on the other curve. -/
example : (c63config 0 1).relief.isSome ∧
    ((c63config 0 1).relief.map fun s =>
      [1, 2, 3, 4, 5, 6].map (c63relief (fun k => c63in (c63ps k)) s)) =
      some [0, 1 / 4, 1 / 4, 1 / 4, 1 / 5, 0] := by decide +kernel

/-- The spec gives the same positions. -/
example : [1, 2, 3, 4, 5, 6].map (track (curve (12 : ℚ) 20 (1 / 4) 2) (curve 10 20 (1 / 4) 2) 1 0 c63ps fun _ => 1) =
    [0, 1 / 4, 1 / 4, 1 / 4, 1 / 5, 0] := by decide +kernel

/-- With a slow valve. -/
example : ((c63config 0 (1 / 10)).relief.map fun s =>
      [1, 2, 3, 4, 5, 6].map (c63relief (fun k => c63in (c63ps k)) s)) =
      some [0, 1 / 10, 1 / 10, 1 / 5, 1 / 5, 1 / 10] := by decide +kernel

example : ∀ k, c63free (c63in (c63ps k)) := fun _ => ⟨zero_le_one, rfl, rfl⟩

/-- The position 1/2 at the start is between the curves at pressure 15, so the valve should hold it: the code closes it
to the opening curve. -/
example : curve (12 : ℚ) 20 (1 / 4) 2 15 < 1 / 2 ∧ (1 / 2 : ℚ) < curve 10 20 (1 / 4) 2 15 ∧
    ((c63config (1 / 2) 1).relief.map fun s => c63relief (fun _ => c63in 15) s 1) = some (13 / 28) ∧
    play (curve (12 : ℚ) 20 (1 / 4) 2) (curve 10 20 (1 / 4) 2) (1 / 2) 15 = 1 / 2 := by decide +kernel

/-- A regulator valve: full open 10, crack 18, reseat 20. -/
def c63regconfig : Config ℚ :=
  { c63config 0 1 with
    reseat := 20
    crack := 18
    fullOpen := 10 }

/-- It opens when the pressure falls below the crack pressure. -/
example : (c63regconfig.regulator.map fun s =>
      [1, 2, 3, 4, 5, 6].map (c63regulator (fun k => c63in (30 - c63ps k)) s)) =
      some [0, 1 / 4, 1 / 4, 1 / 4, 1 / 5, 0] ∧
    [17, 18, 19, 10].map (c63fall (18 : ℚ) 10 (1 / 4) 2) = [1 / 4, 0, 0, 1] := by decide +kernel

end Gunns.Props
