import Verif.Elect.SwitchSpec

/-!
# Lemmas about trips and switches
-/

set_option linter.unusedSectionVars false

namespace Gunns.Sw

open Gunns

variable {K : Type _} [Field K] [LinearOrder K] [IsStrictOrderedRing K]

/-- A trip logic wants to act. -/
def Trip.wants (greater : Bool) (t : Trip K) (param : K) : Bool :=
  !t.inhibit && !decide (t.limit = 0) && decide (1 ≤ t.priority) && (t.force || t.condition greater param)

/-- Its turn has come. -/
def Trip.turn (t : Trip K) (n : Nat) : Bool := t.force || decide (n = t.priority)

/-- `check` of a trip that is not latched, in closed form. -/
theorem Trip.check_eq (greater : Bool) (t : Trip K) (result : SolRes) (param : K) (n : Nat)
    (h : t.tripped = false) :
    t.check greater result param n =
      ({ t with tripped := t.wants greater param && t.turn n },
       if t.wants greater param then
         if t.turn n then .reject else if result = .reject then .reject else .delay
       else result, t.wants greater param && t.turn n) := by
  obtain ⟨inh, fo, lim, pr, tr⟩ := t
  simp only at h
  subst h
  have hp : (1 ≤ pr) = ¬ (pr < 1) := by rw [not_lt]
  by_cases h1 : lim = 0
  · cases inh <;> simp [Trip.check, Trip.wants, Trip.turn, Trip.reset, h1]
  · by_cases h2 : pr < 1
    · cases inh <;> simp [Trip.check, Trip.wants, Trip.turn, Trip.reset, h1, h2]
    · cases inh
      · cases hc : Trip.condition greater ⟨false, fo, lim, pr, false⟩ param <;> cases fo <;>
          by_cases h3 : n = pr <;> cases result <;>
          simp [Trip.check, Trip.wants, Trip.turn, hc, h1, h2, h3, hp]
      · simp [Trip.check, Trip.wants, Trip.turn, Trip.reset]

theorem Trip.make_tripped (l : K) (p : Nat) : (Trip.make l p).tripped = false := rfl

theorem tripped_false {s : Switch K} :
    s.tripped = false ↔ s.uv.tripped = false ∧ s.ov.tripped = false ∧ s.posAmps.tripped = false ∧
      s.negAmps.tripped = false := by
  unfold Switch.tripped
  simp only [Bool.or_eq_false_iff]
  tauto

/-- The reset logics are never latched. -/
def Fresh (s : Switch K) : Prop := s.uvReset.tripped = false ∧ s.ovReset.tripped = false

/-- Some opening trip acts. -/
def Switch.acts (s : Switch K) (i v : K) (n : Nat) : Bool :=
  s.uv.wants false v && s.uv.turn n || s.ov.wants true v && s.ov.turn n ||
  s.posAmps.wants true i && s.posAmps.turn n || s.negAmps.wants false i && s.negAmps.turn n

/-- Some opening trip wants to act. -/
def Switch.wishes (s : Switch K) (i v : K) : Bool :=
  s.uv.wants false v || s.ov.wants true v || s.posAmps.wants true i || s.negAmps.wants false i

theorem updateTrips_zero (s : Switch K) (i v : K) :
    s.updateTrips i v 0 =
      { s with
        waiting := false
        just := false } := by
  unfold Switch.updateTrips
  simp

theorem updateTrips_watch (s : Switch K) (i v : K) (n : Nat) (hn : 0 < n) (hc : s.command = true)
    (hf : s.failClosed = false) (ht : s.tripped = false) :
    s.updateTrips i v n =
      { s with
        uv := { s.uv with tripped := s.uv.wants false v && s.uv.turn n }
        ov := { s.ov with tripped := s.ov.wants true v && s.ov.turn n }
        posAmps := { s.posAmps with tripped := s.posAmps.wants true i && s.posAmps.turn n }
        negAmps := { s.negAmps with tripped := s.negAmps.wants false i && s.negAmps.turn n }
        waiting := !s.acts i v n && s.wishes i v
        just := s.acts i v n
        position := if s.acts i v n then false else s.position } := by
  obtain ⟨t1, t2, t3, t4⟩ := tripped_false.mp ht
  have e1 : ∀ r, s.uv.check false r v n = _ := fun r => Trip.check_eq false s.uv r v n t1
  have e2 : ∀ r, s.ov.check true r v n = _ := fun r => Trip.check_eq true s.ov r v n t2
  have e3 : ∀ r, s.posAmps.check true r i n = _ := fun r => Trip.check_eq true s.posAmps r i n t3
  have e4 : ∀ r, s.negAmps.check false r i n = _ := fun r => Trip.check_eq false s.negAmps r i n t4
  unfold Switch.updateTrips Switch.checkTrips Switch.tripped Switch.acts Switch.wishes
  simp only [e1, e2, e3, e4, t1, t2, t3, t4, hc, hf, hn, if_true, Bool.or_self, Bool.false_and,
    Bool.and_self, Bool.not_false, Bool.false_eq_true, if_false]
  generalize s.uv.wants false v = w1
  generalize s.ov.wants true v = w2
  generalize s.posAmps.wants true i = w3
  generalize s.negAmps.wants false i = w4
  generalize s.uv.turn n = u1
  generalize s.ov.turn n = u2
  generalize s.posAmps.turn n = u3
  generalize s.negAmps.turn n = u4
  cases w1 <;> cases w2 <;> cases w3 <;> cases w4 <;> cases u1 <;> cases u2 <;> cases u3 <;> cases u4 <;> simp

/-- The latched voltage trips that reset now. -/
def Switch.resetsUv (s : Switch K) (v : K) (n : Nat) : Bool :=
  s.uv.tripped && (s.uvReset.wants true v && s.uvReset.turn n)

def Switch.resetsOv (s : Switch K) (v : K) (n : Nat) : Bool :=
  s.ov.tripped && (s.ovReset.wants false v && s.ovReset.turn n)

/-- Some latched voltage trip wants to reset. -/
def Switch.hopes (s : Switch K) (v : K) : Bool :=
  s.uv.tripped && s.uvReset.wants true v || s.ov.tripped && s.ovReset.wants false v

theorem updateTrips_recover (s : Switch K) (i v : K) (n : Nat) (hn : 0 < n) (hr : Fresh s)
    (ht : s.uv.tripped = true ∨ s.ov.tripped = true) (hf : s.failOpen = false)
    (h3 : s.posAmps.tripped = false) (h4 : s.negAmps.tripped = false) :
    s.updateTrips i v n =
      { s with
        uv := { s.uv with tripped := s.uv.tripped && !s.resetsUv v n }
        ov := { s.ov with tripped := s.ov.tripped && !s.resetsOv v n }
        waiting := !(s.resetsUv v n || s.resetsOv v n) && s.hopes v
        just := s.resetsUv v n || s.resetsOv v n
        position := if (s.resetsUv v n || s.resetsOv v n) && s.command then true else s.position } := by
  obtain ⟨r1, r2⟩ := hr
  have e1 : ∀ r, s.uvReset.check true r v n = _ := fun r => Trip.check_eq true s.uvReset r v n r1
  have e2 : ∀ r, s.ovReset.check false r v n = _ := fun r => Trip.check_eq false s.ovReset r v n r2
  unfold Switch.updateTrips Switch.checkUvReset Switch.checkOvReset Switch.resetsUv Switch.resetsOv Switch.hopes
  obtain ⟨fc, fo, res, pos, cmd, rc, ⟨a1, a2, a3, a4, a5⟩, ⟨b1, b2, b3, b4, b5⟩, ⟨c1, c2, c3, c4, c5⟩,
    ⟨d1, d2, d3, d4, d5⟩, ⟨g1, g2, g3, g4, g5⟩, ⟨k1, k2, k3, k4, k5⟩, wt, js⟩ := s
  simp only at r1 r2 ht hf h3 h4 e1 e2
  subst r1 r2 hf h3 h4
  have hn' : n > 0 := hn
  have hor : (a5 || c5) = true := by simpa using ht
  simp only [hn', if_true, hor, Bool.or_self, Bool.not_false, Bool.and_self]
  generalize hw1 : Trip.wants true ⟨b1, b2, b3, b4, false⟩ v = w1 at *
  generalize hw2 : Trip.wants false ⟨d1, d2, d3, d4, false⟩ v = w2 at *
  generalize hu1 : Trip.turn ⟨b1, b2, b3, b4, false⟩ n = u1 at *
  generalize hu2 : Trip.turn ⟨d1, d2, d3, d4, false⟩ n = u2 at *
  cases a5 <;> cases c5 <;> cases w1 <;> cases w2 <;> cases u1 <;> cases u2 <;> cases cmd <;>
    first
    | (exfalso; revert hor; decide)
    | simp [e1, e2, Trip.reset]

/-- Nothing happens to a switch that neither watches nor recovers. -/
theorem updateTrips_idle (s : Switch K) (i v : K) (n : Nat)
    (h1 : ¬ ((s.uv.tripped = true ∨ s.ov.tripped = true) ∧ s.failOpen = false ∧ s.posAmps.tripped = false ∧
      s.negAmps.tripped = false))
    (h2 : ¬ (s.command = true ∧ s.failClosed = false ∧ s.tripped = false)) :
    s.updateTrips i v n =
      { s with
        waiting := false
        just := false } := by
  unfold Switch.updateTrips
  have c1 : ((s.uv.tripped || s.ov.tripped) && !(s.failOpen || s.posAmps.tripped || s.negAmps.tripped)) = false := by
    rw [Bool.eq_false_iff]
    intro h
    simp at h
    exact h1 ⟨h.1, h.2.1.1, h.2.1.2, h.2.2⟩
  have c2 : (s.command && !s.tripped && !s.failClosed) = false := by
    rw [Bool.eq_false_iff]
    intro h
    simp at h
    exact h2 ⟨h.1.1, h.2, h.1.2⟩
  have c3 : Switch.tripped { s with
      waiting := false
      just := false } = s.tripped := rfl
  simp only [c1, c3, c2, Bool.false_eq_true, if_false, ite_self]

/-! ## Cases of `updateTrips` -/

/-- Which of the three things `updateTrips` does. -/
inductive TripCase (s : Switch K) (i v : K) (n : Nat) : Prop
  | zero (h : n = 0)
  | watch (hn : 0 < n) (hc : s.command = true) (hf : s.failClosed = false) (ht : s.tripped = false)
  | recover (hn : 0 < n) (ht : s.uv.tripped = true ∨ s.ov.tripped = true) (hf : s.failOpen = false)
      (h3 : s.posAmps.tripped = false) (h4 : s.negAmps.tripped = false)
  | idle (h1 : ¬ ((s.uv.tripped = true ∨ s.ov.tripped = true) ∧ s.failOpen = false ∧ s.posAmps.tripped = false ∧
      s.negAmps.tripped = false))
    (h2 : ¬ (s.command = true ∧ s.failClosed = false ∧ s.tripped = false))

theorem tripCase (s : Switch K) (i v : K) (n : Nat) : TripCase s i v n := by
  rcases Nat.eq_zero_or_pos n with h | h
  · exact .zero h
  · by_cases h1 : (s.uv.tripped = true ∨ s.ov.tripped = true) ∧ s.failOpen = false ∧ s.posAmps.tripped = false ∧
      s.negAmps.tripped = false
    · exact .recover h h1.1 h1.2.1 h1.2.2.1 h1.2.2.2
    · by_cases h2 : s.command = true ∧ s.failClosed = false ∧ s.tripped = false
      · exact .watch h h2.1 h2.2.1 h2.2.2
      · exact .idle h1 h2

theorem constrain_get_tripped (s : Switch K) (w : Which) : (s.constrain.get w).tripped = (s.get w).tripped := by
  cases w <;> simp only [Switch.constrain, Switch.get] <;> split_ifs <;> rfl

theorem resetTrips_get_tripped (s : Switch K) (w : Which) : (s.resetTrips.get w).tripped = false := by
  cases w <;> rfl

theorem clear_get_tripped (s : Switch K) (w : Which) :
    (s.clear.get w).tripped = ((s.get w).tripped && !(s.resetCommand || s.tripped && !s.command)) := by
  unfold Switch.clear
  cases h1 : (s.tripped && !s.command)
  · cases h2 : s.resetCommand
    · simp [h2]
    · have : ((s.resetTrips.get w).tripped) = false := resetTrips_get_tripped s w
      simp only [h2, if_true, Bool.false_eq_true, if_false]
      simp only [Bool.true_or, Bool.not_true, Bool.and_false]
      cases w <;> rfl
  · have e : s.resetTrips.resetCommand = s.resetCommand := rfl
    simp only [if_true, e]
    cases h2 : s.resetCommand
    · simp [resetTrips_get_tripped]
    · simp only [if_true, Bool.true_or, Bool.not_true, Bool.and_false]
      cases w <;> rfl

theorem move_get (s : Switch K) (w : Which) : s.move.get w = s.get w := by
  unfold Switch.move
  split_ifs <;> cases w <;> rfl

theorem constrain_tripped (s : Switch K) : s.constrain.tripped = s.tripped := rfl

theorem updateState_get_tripped (s : Switch K) (w : Which) :
    (s.updateState.get w).tripped = ((s.get w).tripped && !(s.resetCommand || s.tripped && !s.command)) := by
  unfold Switch.updateState
  rw [move_get, clear_get_tripped, constrain_get_tripped]
  rfl

theorem fresh_apply {s : Switch K} (h : Fresh s) (o : Op K) : Fresh (s.apply o) := by
  have key : ∀ s' : Switch K, (s'.get .uvReset).tripped = false → (s'.get .ovReset).tripped = false → Fresh s' :=
    fun _ a b => ⟨a, b⟩
  obtain ⟨h1, h2⟩ := h
  cases o with
  | command b => exact ⟨h1, h2⟩
  | failClosed b => exact ⟨h1, h2⟩
  | failOpen b => exact ⟨h1, h2⟩
  | resetCommand => exact ⟨h1, h2⟩
  | inhibit w b => cases w <;> exact ⟨h1, h2⟩
  | force w b => cases w <;> exact ⟨h1, h2⟩
  | limit w b => cases w <;> exact ⟨h1, h2⟩
  | resetTrips => exact ⟨rfl, rfl⟩
  | state =>
    refine key _ ?_ ?_
    · rw [show s.apply .state = s.updateState from rfl, updateState_get_tripped]
      simp [Switch.get, h1]
    · rw [show s.apply .state = s.updateState from rfl, updateState_get_tripped]
      simp [Switch.get, h2]
  | trips i v n =>
    rw [show s.apply (.trips i v n) = s.updateTrips i v n from rfl]
    rcases tripCase s i v n with h | ⟨hn, hc, hf, ht⟩ | ⟨hn, ht, hf, h3, h4⟩ | ⟨a, b⟩
    · subst h
      rw [updateTrips_zero]
      exact ⟨h1, h2⟩
    · rw [updateTrips_watch s i v n hn hc hf ht]
      exact ⟨h1, h2⟩
    · rw [updateTrips_recover s i v n hn ⟨h1, h2⟩ ht hf h3 h4]
      exact ⟨h1, h2⟩
    · rw [updateTrips_idle s i v n a b]
      exact ⟨h1, h2⟩

theorem run_nil (s : Switch K) : s.run [] = s := rfl

theorem run_cons (s : Switch K) (o : Op K) (ops : List (Op K)) : s.run (o :: ops) = (s.apply o).run ops := rfl

theorem fresh_run {s : Switch K} (h : Fresh s) (ops : List (Op K)) : Fresh (s.run ops) := by
  induction ops generalizing s with
  | nil => exact h
  | cons o ops ih => exact ih (fresh_apply h o)

theorem make_ok {d : Data K} {s : Switch K} (h : make d = some s) :
    fltEps ≤ d.resistance ∧ d.uvLimit ≤ d.uvReset ∧ d.ovReset ≤ d.ovLimit ∧
    s =
    { failClosed := false
      failOpen := false
      resistance := d.resistance
      position := d.position
      command := d.command
      resetCommand := d.resetCommand
      uv := Trip.make d.uvLimit d.tripPriority
      uvReset := Trip.make d.uvReset d.tripPriority
      ov := Trip.make d.ovLimit d.tripPriority
      ovReset := Trip.make d.ovReset d.tripPriority
      posAmps := Trip.make d.posLimit d.tripPriority
      negAmps := Trip.make d.negLimit d.tripPriority
      waiting := false
      just := false } := by
  unfold make at h
  split_ifs at h with a b c
  injection h with h
  exact ⟨not_lt.mp a, not_lt.mp b, not_lt.mp c, h.symm⟩

theorem reached_fresh {s : Switch K} (h : Reached s) : Fresh s := by
  obtain ⟨d, s0, ops, h0, rfl⟩ := h
  obtain ⟨-, -, -, rfl⟩ := make_ok h0
  exact fresh_run ⟨rfl, rfl⟩ ops

/-! ## Wishes and the vocabulary -/

theorem wants_iff (greater : Bool) (t : Trip K) (p : K) :
    t.wants greater p = true ↔ t.inhibit = false ∧ t.limit ≠ 0 ∧ 1 ≤ t.priority ∧
      (t.force = true ∨ (if greater then t.limit < p else p < t.limit)) := by
  unfold Trip.wants Trip.condition
  cases greater <;> simp [and_assoc]

theorem turn_iff (t : Trip K) (n : Nat) : t.turn n = true ↔ t.force = true ∨ n = t.priority := by
  unfold Trip.turn
  simp

theorem due_uv (s : Switch K) (i v : K) : s.uv.wants false v = true ↔ Due s i v .uv := wants_iff false s.uv v

theorem due_ov (s : Switch K) (i v : K) : s.ov.wants true v = true ↔ Due s i v .ov := wants_iff true s.ov v

theorem due_pos (s : Switch K) (i v : K) : s.posAmps.wants true i = true ↔ Due s i v .posAmps :=
  wants_iff true s.posAmps i

theorem due_neg (s : Switch K) (i v : K) : s.negAmps.wants false i = true ↔ Due s i v .negAmps :=
  wants_iff false s.negAmps i

theorem due_uvReset (s : Switch K) (i v : K) : s.uvReset.wants true v = true ↔ Due s i v .uvReset :=
  wants_iff true s.uvReset v

theorem due_ovReset (s : Switch K) (i v : K) : s.ovReset.wants false v = true ↔ Due s i v .ovReset :=
  wants_iff false s.ovReset v

theorem watching_iff (s : Switch K) :
    Watching s ↔ s.command = true ∧ s.failClosed = false ∧ s.tripped = false := by
  unfold Watching
  rw [tripped_false]
  refine and_congr_right fun _ => and_congr_right fun _ => ?_
  constructor
  · intro h
    exact ⟨h .uv trivial, h .ov trivial, h .posAmps trivial, h .negAmps trivial⟩
  · rintro ⟨a, b, c, d⟩ w hw
    cases w
    · exact a
    · exact hw.elim
    · exact b
    · exact hw.elim
    · exact c
    · exact d

theorem clear_cases (s : Switch K) :
    s.clear = s ∨ s.clear = s.resetTrips ∨ s.clear = { s.resetTrips with resetCommand := false } := by
  unfold Switch.clear
  cases h1 : (s.tripped && !s.command)
  · cases h2 : s.resetCommand
    · left
      simp [h2]
    · right; right
      simp [h2]
  · have e : s.resetTrips.resetCommand = s.resetCommand := rfl
    cases h2 : s.resetCommand
    · right; left
      simp [e, h2]
    · right; right
      simp only [e, h2, if_true]
      rfl

/-- What `updateState` leaves alone. -/
theorem updateState_keeps (s : Switch K) :
    s.updateState.uv.limit = s.uv.limit ∧ s.updateState.ov.limit = s.ov.limit ∧
    (∀ w, (s.updateState.get w).force = (s.get w).force ∧ (s.updateState.get w).inhibit = (s.get w).inhibit ∧
      (s.updateState.get w).priority = (s.get w).priority) ∧
    s.updateState.failClosed = s.failClosed ∧ s.updateState.failOpen = s.failOpen ∧
    s.updateState.command = s.command := by
  have hc : s.constrain.uv.limit = s.uv.limit ∧ s.constrain.ov.limit = s.ov.limit ∧
      (∀ w, (s.constrain.get w).force = (s.get w).force ∧ (s.constrain.get w).inhibit = (s.get w).inhibit ∧
        (s.constrain.get w).priority = (s.get w).priority) ∧
      s.constrain.failClosed = s.failClosed ∧ s.constrain.failOpen = s.failOpen ∧
      s.constrain.command = s.command := by
    refine ⟨rfl, rfl, fun w => ?_, rfl, rfl, rfl⟩
    cases w <;> simp only [Switch.constrain, Switch.get] <;> (try split_ifs) <;> simp
  have hm : ∀ t : Switch K, t.move.uv = t.uv ∧ t.move.ov = t.ov ∧ (∀ w, t.move.get w = t.get w) ∧
      t.move.failClosed = t.failClosed ∧ t.move.failOpen = t.failOpen ∧ t.move.command = t.command := by
    intro t
    refine ⟨move_get t .uv, move_get t .ov, move_get t, ?_, ?_, ?_⟩ <;> unfold Switch.move <;> split_ifs <;> rfl
  unfold Switch.updateState
  obtain ⟨m1, m2, m3, m4, m5, m6⟩ := hm s.constrain.clear
  rw [m1, m2, m4, m5, m6]
  generalize s.constrain = u at *
  have hcl : u.clear.uv.limit = u.uv.limit ∧ u.clear.ov.limit = u.ov.limit ∧
      (∀ w, (u.clear.get w).force = (u.get w).force ∧ (u.clear.get w).inhibit = (u.get w).inhibit ∧
        (u.clear.get w).priority = (u.get w).priority) ∧
      u.clear.failClosed = u.failClosed ∧ u.clear.failOpen = u.failOpen ∧ u.clear.command = u.command := by
    rcases clear_cases u with h | h | h <;> rw [h] <;> refine ⟨rfl, rfl, fun w => ?_, rfl, rfl, rfl⟩ <;>
      cases w <;> exact ⟨rfl, rfl, rfl⟩
  obtain ⟨k1, k2, k3, k4, k5, k6⟩ := hcl
  obtain ⟨g1, g2, g3, g4, g5, g6⟩ := hc
  refine ⟨k1.trans g1, k2.trans g2, fun w => ?_, k4.trans g4, k5.trans g5, k6.trans g6⟩
  rw [m3]
  exact ⟨(k3 w).1.trans (g3 w).1, (k3 w).2.1.trans (g3 w).2.1, (k3 w).2.2.trans (g3 w).2.2⟩

/-- What `updateTrips` leaves alone. -/
theorem updateTrips_keeps {s : Switch K} (hr : Fresh s) (i v : K) (n : Nat) :
    (∀ w, ((s.updateTrips i v n).get w).force = (s.get w).force ∧
      ((s.updateTrips i v n).get w).inhibit = (s.get w).inhibit ∧
      ((s.updateTrips i v n).get w).priority = (s.get w).priority ∧
      ((s.updateTrips i v n).get w).limit = (s.get w).limit) ∧
    (s.updateTrips i v n).failClosed = s.failClosed ∧ (s.updateTrips i v n).failOpen = s.failOpen ∧
    (s.updateTrips i v n).command = s.command ∧ (s.updateTrips i v n).resetCommand = s.resetCommand := by
  rcases tripCase s i v n with h | ⟨hn, hc, hf, ht⟩ | ⟨hn, ht, hf, g3, g4⟩ | ⟨k1, k2⟩
  · subst h
    rw [updateTrips_zero]
    refine ⟨fun w => ?_, rfl, rfl, rfl, rfl⟩
    cases w <;> exact ⟨rfl, rfl, rfl, rfl⟩
  · rw [updateTrips_watch s i v n hn hc hf ht]
    refine ⟨fun w => ?_, rfl, rfl, rfl, rfl⟩
    cases w <;> exact ⟨rfl, rfl, rfl, rfl⟩
  · rw [updateTrips_recover s i v n hn hr ht hf g3 g4]
    refine ⟨fun w => ?_, rfl, rfl, rfl, rfl⟩
    cases w <;> exact ⟨rfl, rfl, rfl, rfl⟩
  · rw [updateTrips_idle s i v n k1 k2]
    refine ⟨fun w => ?_, rfl, rfl, rfl, rfl⟩
    cases w <;> exact ⟨rfl, rfl, rfl, rfl⟩

theorem reached_apply {s : Switch K} (h : Reached s) (o : Op K) : Reached (s.apply o) := by
  obtain ⟨d, s0, ops, h0, rfl⟩ := h
  refine ⟨d, s0, ops ++ [o], h0, ?_⟩
  unfold Switch.run
  rw [List.foldl_append]
  rfl

end Gunns.Sw
