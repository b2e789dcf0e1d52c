import Verif.Elect.SwitchLemmas
import Mathlib.Tactic.Tauto

/-!
# C39: trips of an electrical switch
-/

set_option linter.unusedSectionVars false

namespace Gunns.Props

open Gunns.Sw

variable {K : Type _} [Field K] [LinearOrder K] [IsStrictOrderedRing K]

/-- C39: a trip is latched by exactly those calls in which the switch looks for trips, that trip has a reason and its
turn has come. -/
theorem c39_trips_exactly {s : Switch K} (hs : Reached s) (i v : K) (n : Nat) (w : Which)
    (h0 : (s.get w).tripped = false) :
    ((s.updateTrips i v n).get w).tripped = true ↔
      w.opens ∧ 0 < n ∧ Watching s ∧ Due s i v w ∧ Turn s n w := by
  have hr := reached_fresh hs
  rw [watching_iff]
  rcases tripCase s i v n with h | ⟨hn, hc, hf, ht⟩ | ⟨hn, ht, hf, h3, h4⟩ | ⟨a, b⟩
  · subst h
    rw [updateTrips_zero]
    constructor
    · intro h
      cases w <;> exact absurd h (by rw [Bool.eq_false_iff] at h0; exact h0)
    · rintro ⟨-, h, -⟩
      exact absurd h (lt_irrefl _)
  · rw [updateTrips_watch s i v n hn hc hf ht]
    cases w with
    | uv =>
      simp only [Switch.get, Bool.and_eq_true, due_uv s i v, turn_iff, Turn, Which.opens]
      tauto
    | ov =>
      simp only [Switch.get, Bool.and_eq_true, due_ov s i v, turn_iff, Turn, Which.opens]
      tauto
    | posAmps =>
      simp only [Switch.get, Bool.and_eq_true, due_pos s i v, turn_iff, Turn, Which.opens]
      tauto
    | negAmps =>
      simp only [Switch.get, Bool.and_eq_true, due_neg s i v, turn_iff, Turn, Which.opens]
      tauto
    | uvReset => simp [Switch.get, hr.1, Which.opens]
    | ovReset => simp [Switch.get, hr.2, Which.opens]
  · rw [updateTrips_recover s i v n hn hr ht hf h3 h4]
    constructor
    · intro h
      exfalso
      cases w <;> simp only [Switch.get] at h h0 <;> simp [h0] at h
    · rintro ⟨-, -, ⟨-, -, h⟩, -⟩
      obtain ⟨t1, t2, -, -⟩ := tripped_false.mp h
      rw [t1, t2] at ht
      simp at ht
  · rw [updateTrips_idle s i v n a b]
    constructor
    · intro h
      cases w <;> exact absurd h (by rw [Bool.eq_false_iff] at h0; exact h0)
    · rintro ⟨-, -, h, -⟩
      exact absurd h b

/-- C39: a latched trip is cleared by exactly those calls in which it is a voltage trip, no over-current trip is
latched, the switch is not failed open, and the reset logic of that trip has a reason and its turn. -/
theorem c39_resets_exactly {s : Switch K} (hs : Reached s) (i v : K) (n : Nat) (w : Which)
    (h0 : (s.get w).tripped = true) :
    ((s.updateTrips i v n).get w).tripped = false ↔
      0 < n ∧ Recovering s ∧ ∃ r, ResetOf s w r ∧ Due s i v r ∧ Turn s n r := by
  have hr := reached_fresh hs
  unfold Recovering
  rcases tripCase s i v n with h | ⟨hn, hc, hf, ht⟩ | ⟨hn, ht, hf, h3, h4⟩ | ⟨a, b⟩
  · subst h
    rw [updateTrips_zero]
    constructor
    · intro h
      cases w <;> simp only [Switch.get] at h h0 <;> rw [h] at h0 <;> cases h0
    · rintro ⟨h, -⟩
      exact absurd h (lt_irrefl _)
  · exfalso
    obtain ⟨t1, t2, t3, t4⟩ := tripped_false.mp ht
    cases w <;> simp only [Switch.get] at h0 <;> simp_all [Fresh]
  · rw [updateTrips_recover s i v n hn hr ht hf h3 h4]
    cases w with
    | uv =>
      simp only [Switch.get] at h0
      have e : (∃ r, ResetOf s .uv r ∧ Due s i v r ∧ Turn s n r) ↔ Due s i v .uvReset ∧ Turn s n .uvReset := by
        constructor
        · rintro ⟨r, h1, h2⟩
          cases r <;> simp only [ResetOf] at h1
          exact h2
        · intro h
          exact ⟨.uvReset, h0, h⟩
      rw [e, ← due_uvReset s i v]
      simp only [Switch.get, Switch.resetsUv, h0, Bool.true_and, Bool.not_eq_false', Bool.and_eq_true, turn_iff, Turn]
      tauto
    | ov =>
      simp only [Switch.get] at h0
      have e : (∃ r, ResetOf s .ov r ∧ Due s i v r ∧ Turn s n r) ↔ Due s i v .ovReset ∧ Turn s n .ovReset := by
        constructor
        · rintro ⟨r, h1, h2⟩
          cases r <;> simp only [ResetOf] at h1
          exact h2
        · intro h
          exact ⟨.ovReset, h0, h⟩
      rw [e, ← due_ovReset s i v]
      simp only [Switch.get, Switch.resetsOv, h0, Bool.true_and, Bool.not_eq_false', Bool.and_eq_true, turn_iff, Turn]
      tauto
    | uvReset => simp [Switch.get, hr.1] at h0
    | ovReset => simp [Switch.get, hr.2] at h0
    | posAmps => simp [Switch.get, h3] at h0
    | negAmps => simp [Switch.get, h4] at h0
  · rw [updateTrips_idle s i v n a b]
    constructor
    · intro h
      cases w <;> simp only [Switch.get] at h h0 <;> rw [h] at h0 <;> cases h0
    · rintro ⟨-, h, -⟩
      exact absurd h a

/-- C39: the switch says it has just tripped exactly if this call latched or cleared a trip, and that it waits exactly
if this call did not, but some trip or reset it looks for has a reason. -/
theorem c39_flags {s : Switch K} (hs : Reached s) (i v : K) (n : Nat) :
    let t := s.updateTrips i v n;
    (t.just = true ↔ ∃ w, (t.get w).tripped ≠ (s.get w).tripped) ∧
    (t.waiting = true ↔ (∀ w, (t.get w).tripped = (s.get w).tripped) ∧ 0 < n ∧
      ((Watching s ∧ ∃ w, w.opens ∧ Due s i v w) ∨
       (Recovering s ∧ ∃ w r, ResetOf s w r ∧ Due s i v r))) := by
  intro t
  have ht' : t = s.updateTrips i v n := rfl
  have hr := reached_fresh hs
  rw [watching_iff]
  unfold Recovering
  have all : ∀ p : Which → Prop, (∀ w, p w) ↔ p .uv ∧ p .uvReset ∧ p .ov ∧ p .ovReset ∧ p .posAmps ∧ p .negAmps := by
    intro p
    constructor
    · intro h
      exact ⟨h _, h _, h _, h _, h _, h _⟩
    · rintro ⟨a, b, c, d, e, f⟩ w
      cases w <;> assumption
  have just_iff : (∃ w, (t.get w).tripped ≠ (s.get w).tripped) ↔ ¬ ∀ w, (t.get w).tripped = (s.get w).tripped := by
    push Not
    rfl
  rw [just_iff]
  have none_changed : ∀ u : Switch K, (∀ w, (u.get w).tripped = (s.get w).tripped) ↔
      u.uv.tripped = s.uv.tripped ∧ u.uvReset.tripped = s.uvReset.tripped ∧ u.ov.tripped = s.ov.tripped ∧
      u.ovReset.tripped = s.ovReset.tripped ∧ u.posAmps.tripped = s.posAmps.tripped ∧
      u.negAmps.tripped = s.negAmps.tripped := fun u => all _
  rw [none_changed]
  rcases tripCase s i v n with h | ⟨hn, hc, hf, ht⟩ | ⟨hn, ht, hf, h3, h4⟩ | ⟨a, b⟩
  · subst h
    rw [ht', updateTrips_zero]
    simp
  · rw [ht', updateTrips_watch s i v n hn hc hf ht]
    have ex : (∃ w : Which, w.opens ∧ Due s i v w) ↔ s.wishes i v = true := by
      unfold Switch.wishes
      simp only [Bool.or_eq_true, due_uv s i v, due_ov s i v, due_pos s i v, due_neg s i v]
      constructor
      · rintro ⟨w, h1, h2⟩
        cases w <;> simp only [Which.opens] at h1 <;> tauto
      · rintro (((h | h) | h) | h)
        · exact ⟨.uv, trivial, h⟩
        · exact ⟨.ov, trivial, h⟩
        · exact ⟨.posAmps, trivial, h⟩
        · exact ⟨.negAmps, trivial, h⟩
    obtain ⟨t1, t2, t3, t4⟩ := tripped_false.mp ht
    rw [ex]
    simp only [t1, t2, t3, t4, hn, hc, hf, ht, Switch.acts]
    generalize s.wishes i v = W
    generalize (s.uv.wants false v && s.uv.turn n) = b1
    generalize (s.ov.wants true v && s.ov.turn n) = b2
    generalize (s.posAmps.wants true i && s.posAmps.turn n) = b3
    generalize (s.negAmps.wants false i && s.negAmps.turn n) = b4
    cases b1 <;> cases b2 <;> cases b3 <;> cases b4 <;> cases W <;> simp
  · rw [ht', updateTrips_recover s i v n hn hr ht hf h3 h4]
    have ex : (∃ w r : Which, ResetOf s w r ∧ Due s i v r) ↔ s.hopes v = true := by
      unfold Switch.hopes
      simp only [Bool.or_eq_true, Bool.and_eq_true, due_uvReset s i v, due_ovReset s i v]
      constructor
      · rintro ⟨w, r, h1, h2⟩
        cases w <;> cases r <;> simp only [ResetOf] at h1
        · exact Or.inl ⟨h1, h2⟩
        · exact Or.inr ⟨h1, h2⟩
      · rintro (h | h)
        · exact ⟨.uv, .uvReset, h⟩
        · exact ⟨.ov, .ovReset, h⟩
    have hnt : s.tripped ≠ false := by
      intro h
      obtain ⟨t1, t2, -, -⟩ := tripped_false.mp h
      rw [t1, t2] at ht
      simp at ht
    rw [ex]
    have r1 : s.resetsUv v n = true → s.uv.tripped = true := by
      unfold Switch.resetsUv
      intro h
      rw [Bool.and_eq_true] at h
      exact h.1
    have r2 : s.resetsOv v n = true → s.ov.tripped = true := by
      unfold Switch.resetsOv
      intro h
      rw [Bool.and_eq_true] at h
      exact h.1
    simp only [hn, hf, h3, h4, ht, hnt, true_and, and_true]
    generalize s.hopes v = W
    generalize s.resetsUv v n = b1 at *
    generalize s.resetsOv v n = b2 at *
    cases b1 <;> cases b2 <;> simp_all
  · rw [ht', updateTrips_idle s i v n a b]
    simp only [b, a, false_and, or_self, and_false, and_true, not_true_eq_false]
    simp

/-- C39: a call that latches a trip opens the switch; a call that clears one closes it if the command is to close, and
leaves it otherwise; any other call leaves the position. -/
theorem c39_position {s : Switch K} (hs : Reached s) (i v : K) (n : Nat) :
    let t := s.updateTrips i v n;
    ((∃ w, (s.get w).tripped = false ∧ (t.get w).tripped = true) → t.position = false) ∧
    ((∃ w, (s.get w).tripped = true ∧ (t.get w).tripped = false) → t.position = (s.command || s.position)) ∧
    ((∀ w, (t.get w).tripped = (s.get w).tripped) → t.position = s.position) := by
  intro t
  have ht' : t = s.updateTrips i v n := rfl
  have hj := (c39_flags hs i v n).1
  rw [← ht'] at hj
  have hr := reached_fresh hs
  have same : (∃ w, (s.get w).tripped = false ∧ (t.get w).tripped = true) ∨
      (∃ w, (s.get w).tripped = true ∧ (t.get w).tripped = false) → t.just = true := by
    intro h
    rw [hj]
    rcases h with ⟨w, h1, h2⟩ | ⟨w, h1, h2⟩
    · exact ⟨w, by rw [h1, h2]; decide⟩
    · exact ⟨w, by rw [h1, h2]; decide⟩
  have none : (∀ w, (t.get w).tripped = (s.get w).tripped) → t.just = false := by
    intro h
    rw [Bool.eq_false_iff]
    intro c
    obtain ⟨w, hw⟩ := hj.mp c
    exact hw (h w)
  rcases tripCase s i v n with h | ⟨hn, hc, hf, ht⟩ | ⟨hn, ht, hf, h3, h4⟩ | ⟨a, b⟩
  · subst h
    rw [updateTrips_zero] at ht'
    have j : t.just = false := by rw [ht']
    refine ⟨fun h => ?_, fun h => ?_, fun _ => by rw [ht']⟩
    · rw [same (Or.inl h)] at j; cases j
    · rw [same (Or.inr h)] at j; cases j
  · rw [updateTrips_watch s i v n hn hc hf ht] at ht'
    have j : t.just = s.acts i v n := by rw [ht']
    have p : t.position = if s.acts i v n then false else s.position := by rw [ht']
    refine ⟨fun h => ?_, ?_, fun h => ?_⟩
    · rw [p, ← j, same (Or.inl h)]; rfl
    · rintro ⟨w, h1, h2⟩
      exfalso
      obtain ⟨t1, t2, t3, t4⟩ := tripped_false.mp ht
      cases w <;> simp only [Switch.get] at h1 <;> simp_all [Fresh]
    · rw [p, ← j, none h]; rfl
  · rw [updateTrips_recover s i v n hn hr ht hf h3 h4] at ht'
    have j : t.just = (s.resetsUv v n || s.resetsOv v n) := by rw [ht']
    have p : t.position = if (s.resetsUv v n || s.resetsOv v n) && s.command then true else s.position := by rw [ht']
    refine ⟨?_, fun h => ?_, fun h => ?_⟩
    · rintro ⟨w, h1, h2⟩
      exfalso
      rw [ht'] at h2
      cases w <;> simp only [Switch.get] at h1 h2 <;> simp [h1] at h2
    · rw [p, ← j, same (Or.inr h)]
      cases s.command <;> simp
    · rw [p, ← j, none h]; rfl
  · rw [updateTrips_idle s i v n a b] at ht'
    have j : t.just = false := by rw [ht']
    refine ⟨fun h => ?_, fun h => ?_, fun _ => by rw [ht']⟩
    · rw [same (Or.inl h)] at j; cases j
    · rw [same (Or.inr h)] at j; cases j

/-! ## Over-current trips stay latched -/

/-- The operations by which a user resets a trip. -/
def userReset : Op K → Prop
  | .command b => b = false
  | .resetCommand => True
  | .resetTrips => True
  | _ => False

theorem amps_stay_apply {s : Switch K} (o : Op K) (ho : ¬ userReset o)
    (ht : s.posAmps.tripped = true ∨ s.negAmps.tripped = true) (hc : s.command = true)
    (hr : s.resetCommand = false) :
    ((s.apply o).posAmps.tripped = s.posAmps.tripped ∧ (s.apply o).negAmps.tripped = s.negAmps.tripped) ∧
    (s.apply o).command = true ∧ (s.apply o).resetCommand = false ∧
    ((∀ b, o ≠ .failClosed b) → (s.apply o).failClosed = s.failClosed) ∧
    (s.failClosed = false → s.position = false → (s.apply o).position = false) := by
  have htr : s.tripped = true := by
    unfold Switch.tripped
    rcases ht with h | h <;> simp [h]
  cases o with
  | command b =>
    have hb : b = true := by
      cases b
      · exact absurd rfl ho
      · rfl
    subst hb
    exact ⟨⟨rfl, rfl⟩, rfl, hr, fun _ => rfl, fun _ h => h⟩
  | failClosed b => exact ⟨⟨rfl, rfl⟩, hc, hr, fun h => absurd rfl (h b), fun _ h => h⟩
  | failOpen b => exact ⟨⟨rfl, rfl⟩, hc, hr, fun _ => rfl, fun _ h => h⟩
  | resetCommand => exact absurd trivial ho
  | inhibit w b => cases w <;> exact ⟨⟨rfl, rfl⟩, hc, hr, fun _ => rfl, fun _ h => h⟩
  | force w b => cases w <;> exact ⟨⟨rfl, rfl⟩, hc, hr, fun _ => rfl, fun _ h => h⟩
  | limit w b => cases w <;> exact ⟨⟨rfl, rfl⟩, hc, hr, fun _ => rfl, fun _ h => h⟩
  | resetTrips => exact absurd trivial ho
  | state =>
    have e : s.constrain.clear = s.constrain := by
      unfold Switch.clear
      have c1 : s.constrain.command = true := hc
      have c2 : s.constrain.resetCommand = false := hr
      simp [c1, c2]
    have e' : s.apply .state = s.constrain.move := by
      rw [show s.apply .state = s.constrain.clear.move from rfl, e]
    rw [e']
    have hm : s.constrain.move = { s.constrain with
        position := if s.failClosed then true else if s.failOpen then false else s.position } := by
      unfold Switch.move
      have t : s.constrain.tripped = true := htr
      have f : s.constrain.failClosed = s.failClosed := rfl
      have g : s.constrain.failOpen = s.failOpen := rfl
      rw [t, f, g]
      cases hf : s.failClosed <;> cases hg : s.failOpen <;> simp [Switch.constrain, hf, hg]
    rw [hm]
    refine ⟨⟨rfl, rfl⟩, hc, hr, fun _ => rfl, fun a b => ?_⟩
    simp [a, b]
  | trips i v n =>
    have e : s.apply (.trips i v n) = _ := updateTrips_idle s i v n
      (by
        rintro ⟨-, -, h3, h4⟩
        rw [h3, h4] at ht
        simp at ht)
      (by
        rintro ⟨-, -, h⟩
        rw [htr] at h
        cases h)
    rw [e]
    exact ⟨⟨rfl, rfl⟩, hc, hr, fun _ => rfl, fun _ h => h⟩

/-- C39: whatever happens to a switch tripped by over-current, it stays tripped until the user commands it open or
resets it; inhibiting the trip does not reset it. If no fail closed malfunction is involved, it stays open. -/
theorem c39_over_current_latches {s : Switch K} (ops : List (Op K)) (w : Which) (hw : w = .posAmps ∨ w = .negAmps)
    (ht : (s.get w).tripped = true) (hc : s.command = true) (hr : s.resetCommand = false)
    (hops : ∀ o ∈ ops, ¬ userReset o) :
    ((s.run ops).get w).tripped = true ∧
    (s.failClosed = false → s.position = false → (∀ b, .failClosed b ∉ ops) → (s.run ops).position = false) := by
  induction ops generalizing s with
  | nil => exact ⟨ht, fun _ h _ => h⟩
  | cons o ops ih =>
    have ht' : s.posAmps.tripped = true ∨ s.negAmps.tripped = true := by
      rcases hw with rfl | rfl
      · exact Or.inl ht
      · exact Or.inr ht
    obtain ⟨⟨a1, a2⟩, a3, a4, a5, a6⟩ := amps_stay_apply o (hops o (List.mem_cons_self)) ht' hc hr
    have ht1 : ((s.apply o).get w).tripped = true := by
      rcases hw with rfl | rfl
      · exact a1.trans ht
      · exact a2.trans ht
    obtain ⟨b1, b2⟩ := ih ht1 a3 a4 (fun o' h => hops o' (List.mem_cons_of_mem _ h))
    refine ⟨b1, fun c1 c2 c3 => b2 ?_ (a6 c1 c2) fun b h => c3 b (List.mem_cons_of_mem _ h)⟩
    rw [a5 (fun b h => c3 b (h ▸ List.mem_cons_self))]
    exact c1

/-! ## A tripped switch is open -/

/-- Operations that can neither fail the switch closed, nor force a voltage trip, nor change a voltage limit. -/
def plain : Op K → Prop
  | .failClosed b => b = false
  | .force w b => w = .uv ∨ w = .ov → b = false
  | .limit w _ => w ≠ .uv ∧ w ≠ .ov
  | _ => True

/-- What plain operations keep. -/
structure OpenInv (a b : K) (s : Switch K) : Prop where
  fresh : Fresh s
  closed : s.failClosed = false
  uvForce : s.uv.force = false
  ovForce : s.ov.force = false
  uvLimit : s.uv.limit = a
  ovLimit : s.ov.limit = b
  one : s.uv.tripped = false ∨ s.ov.tripped = false
  isOpen : s.tripped = true → s.position = false

theorem openInv_apply {a b : K} (hab : a ≤ b ∨ a = 0 ∨ b = 0) {s : Switch K} (h : OpenInv a b s) (o : Op K)
    (ho : plain o) : OpenInv a b (s.apply o) := by
  have hfr := fresh_apply h.fresh o
  obtain ⟨h0, h1, h2, h3, h4, h5, h6, h7⟩ := h
  cases o with
  | command b => exact ⟨hfr, h1, h2, h3, h4, h5, h6, h7⟩
  | failClosed b => exact ⟨hfr, ho, h2, h3, h4, h5, h6, h7⟩
  | failOpen b => exact ⟨hfr, h1, h2, h3, h4, h5, h6, h7⟩
  | resetCommand => exact ⟨hfr, h1, h2, h3, h4, h5, h6, h7⟩
  | inhibit w b => cases w <;> exact ⟨hfr, h1, h2, h3, h4, h5, h6, h7⟩
  | force w b =>
    cases w with
    | uv => exact ⟨hfr, h1, ho (Or.inl rfl), h3, h4, h5, h6, h7⟩
    | ov => exact ⟨hfr, h1, h2, ho (Or.inr rfl), h4, h5, h6, h7⟩
    | uvReset => exact ⟨hfr, h1, h2, h3, h4, h5, h6, h7⟩
    | ovReset => exact ⟨hfr, h1, h2, h3, h4, h5, h6, h7⟩
    | posAmps => exact ⟨hfr, h1, h2, h3, h4, h5, h6, h7⟩
    | negAmps => exact ⟨hfr, h1, h2, h3, h4, h5, h6, h7⟩
  | limit w x =>
    cases w with
    | uv => exact absurd rfl ho.1
    | ov => exact absurd rfl ho.2
    | uvReset => exact ⟨hfr, h1, h2, h3, h4, h5, h6, h7⟩
    | ovReset => exact ⟨hfr, h1, h2, h3, h4, h5, h6, h7⟩
    | posAmps => exact ⟨hfr, h1, h2, h3, h4, h5, h6, h7⟩
    | negAmps => exact ⟨hfr, h1, h2, h3, h4, h5, h6, h7⟩
  | resetTrips => exact ⟨hfr, h1, h2, h3, h4, h5, Or.inl rfl, fun h => by cases h⟩
  | state =>
    have hcon : s.constrain.failClosed = false ∧ s.constrain.uv.force = false ∧ s.constrain.ov.force = false ∧
        s.constrain.uv.limit = a ∧ s.constrain.ov.limit = b ∧
        (s.constrain.tripped = true → s.constrain.position = false) ∧
        (s.constrain.uv.tripped = false ∨ s.constrain.ov.tripped = false) := ⟨h1, h2, h3, h4, h5, h7, h6⟩
    generalize hu : s.constrain = u at hcon
    have hclear : u.clear.failClosed = false ∧ u.clear.uv.force = false ∧ u.clear.ov.force = false ∧
        u.clear.uv.limit = a ∧ u.clear.ov.limit = b ∧
        (u.clear.tripped = true → u.clear.position = false) ∧
        (u.clear.uv.tripped = false ∨ u.clear.ov.tripped = false) := by
      obtain ⟨k1, k2, k3, k4, k5, k6, k7⟩ := hcon
      rcases clear_cases u with h | h | h
      · rw [h]
        exact ⟨k1, k2, k3, k4, k5, k6, k7⟩
      · rw [h]
        exact ⟨k1, k2, k3, k4, k5, (fun h => by cases h), Or.inl rfl⟩
      · rw [h]
        exact ⟨k1, k2, k3, k4, k5, (fun h => by cases h), Or.inl rfl⟩
    have hap : s.apply .state = u.clear.move := by rw [← hu]; rfl
    rw [hap] at hfr ⊢
    generalize u.clear = c at hclear hfr ⊢
    obtain ⟨k1, k2, k3, k4, k5, k6, k7⟩ := hclear
    have hm : c.move = { c with
        position := if c.failOpen then false else if !(c.tripped || c.waiting) then c.command else c.position } := by
      unfold Switch.move
      rw [if_neg (by rw [k1]; decide)]
      split_ifs <;> rfl
    rw [hm] at hfr ⊢
    refine ⟨hfr, k1, k2, k3, k4, k5, k7, fun h => ?_⟩
    have h' : c.tripped = true := h
    simp only [h', Bool.true_or, Bool.not_true, Bool.false_eq_true, if_false, k6 h', ite_self]
  | trips i v n =>
    rw [show s.apply (.trips i v n) = s.updateTrips i v n from rfl] at hfr ⊢
    rcases tripCase s i v n with h | ⟨hn, hc, hf, ht⟩ | ⟨hn, ht, hf, g3, g4⟩ | ⟨k1, k2⟩
    · subst h
      rw [updateTrips_zero] at hfr ⊢
      exact ⟨hfr, h1, h2, h3, h4, h5, h6, h7⟩
    · rw [updateTrips_watch s i v n hn hc hf ht] at hfr ⊢
      refine ⟨hfr, h1, h2, h3, h4, h5, ?_, ?_⟩
      · by_contra hh
        push Not at hh
        obtain ⟨x, y⟩ := hh
        simp only [ne_eq, Bool.not_eq_false, Bool.and_eq_true] at x y
        obtain ⟨-, x2, -, x4⟩ := (due_uv s i v).mp x.1
        obtain ⟨-, y2, -, y4⟩ := (due_ov s i v).mp y.1
        simp only [Switch.get, Beyond, h2, h3, h4, h5, Bool.false_eq_true, false_or] at x2 y2 x4 y4
        rcases hab with q | q | q
        · exact absurd (lt_of_lt_of_le x4 q) (not_lt.mpr y4.le)
        · exact x2 q
        · exact y2 q
      · intro h
        have : s.acts i v n = true := h
        simp [this]
    · rw [updateTrips_recover s i v n hn h0 ht hf g3 g4] at hfr ⊢
      have hone : s.uv.tripped = false ∨ s.ov.tripped = false := h6
      refine ⟨hfr, h1, h2, h3, h4, h5, ?_, ?_⟩
      · rcases h6 with h | h <;> simp [h]
      · intro h
        simp only [Switch.tripped, g3, g4, Bool.or_false] at h
        have p0 : s.position = false := by
          apply h7
          unfold Switch.tripped
          rcases ht with q | q <;> simp [q]
        have hno : (s.resetsUv v n || s.resetsOv v n) = false := by
          rcases hone with q | q
          · rw [q] at h ht
            have e1 : s.resetsUv v n = false := by unfold Switch.resetsUv; rw [q]; rfl
            simp only [Bool.false_and, Bool.false_or, Bool.and_eq_true, Bool.not_eq_true'] at h
            rw [e1, h.2]
            rfl
          · rw [q] at h ht
            have e1 : s.resetsOv v n = false := by unfold Switch.resetsOv; rw [q]; rfl
            simp only [Bool.false_and, Bool.or_false, Bool.and_eq_true, Bool.not_eq_true'] at h
            rw [e1, h.2]
            rfl
        simp [hno, p0]
    · rw [updateTrips_idle s i v n k1 k2] at hfr ⊢
      exact ⟨hfr, h1, h2, h3, h4, h5, h6, h7⟩

/-- C39: a tripped switch is open. Proved for switches whose voltage limits do not cross, under operations that do not
fail the switch closed, force a voltage trip or change a voltage limit; missing: all other operations. For them the
statement is false, see `c39_closed_after_fail_closed` and `c39_closed_after_one_reset`. -/
theorem c39_tripped_is_open_partial {d : Data K} {s0 : Switch K} (h0 : make d = some s0)
    (hd : d.uvLimit ≤ d.ovLimit ∨ d.uvLimit = 0 ∨ d.ovLimit = 0) (ops : List (Op K)) (hops : ∀ o ∈ ops, plain o)
    (ht : (s0.run ops).tripped = true) : (s0.run ops).position = false := by
  obtain ⟨-, -, -, e⟩ := make_ok h0
  have hi : OpenInv d.uvLimit d.ovLimit s0 := by
    rw [e]
    exact ⟨⟨rfl, rfl⟩, rfl, rfl, rfl, rfl, rfl, Or.inl rfl, fun h => by cases h⟩
  have key : ∀ (ops : List (Op K)) (s : Switch K), OpenInv d.uvLimit d.ovLimit s → (∀ o ∈ ops, plain o) →
      OpenInv d.uvLimit d.ovLimit (s.run ops) := by
    intro ops
    induction ops with
    | nil => exact fun s h _ => h
    | cons o ops ih =>
      intro s h hp
      exact ih _ (openInv_apply hd h o (hp o List.mem_cons_self)) fun o' h' => hp o' (List.mem_cons_of_mem _ h')
  exact (key ops s0 hi hops).isOpen ht

/-- A switch of priority 1 with an under-voltage limit of 100 (reset above 110), an over-voltage limit of 130 (reset
below 120) and over-current limits of 10 and -10. -/
def demo : Data ℚ :=
  { resistance := 1, tripPriority := 1, position := true, command := true, resetCommand := false
    uvLimit := 100, uvReset := 110, ovLimit := 130, ovReset := 120, posLimit := 10, negLimit := -10 }

/-- The state after initialisation and some operations. -/
def after (d : Data ℚ) (ops : List (Op ℚ)) : Option (Switch ℚ) := (make d).map (Switch.run · ops)

/-- C39 fails: a switch tripped by over-current that was failed closed for a while stays closed when the malfunction
is over, though it is still tripped and has no malfunction; further calls with over-current do not open it. -/
theorem c39_closed_after_fail_closed :
    (after demo [.state, .trips 11 115 1, .state, .failClosed true, .state, .failClosed false, .state,
      .trips 50 115 1, .state]).map
      (fun s => (s.tripped, s.position, s.failClosed, s.failOpen)) = some (true, true, false, false) := by
  decide +kernel

/-- C39 fails: with an under-voltage limit above the over-voltage limit, which initialisation accepts, both trips are
latched by one voltage; when one of them resets, the switch closes though the other is still latched. -/
theorem c39_closed_after_one_reset :
    (after { demo with ovLimit := 90, ovReset := 80 } [.state, .trips 0 95 1, .state, .trips 0 115 1, .state]).map
      (fun s => (s.tripped, s.position, s.failClosed, s.failOpen)) = some (true, true, false, false) := by
  decide +kernel

/-! ## No chatter, and the open command -/

/-- C39: `updateState` keeps the reset limits on the safe side of the trip limits. -/
theorem c39_limits_ordered (s : Switch K) :
    s.updateState.uv.limit ≤ s.updateState.uvReset.limit ∧ s.updateState.ovReset.limit ≤ s.updateState.ov.limit := by
  have hc : s.constrain.uv.limit ≤ s.constrain.uvReset.limit ∧ s.constrain.ovReset.limit ≤ s.constrain.ov.limit := by
    unfold Switch.constrain
    constructor
    · dsimp only
      split_ifs with h
      · exact le_refl _
      · exact not_lt.mp h
    · dsimp only
      split_ifs with h
      · exact le_refl _
      · exact not_lt.mp h
  have hl : s.constrain.clear.uv.limit = s.constrain.uv.limit ∧
      s.constrain.clear.uvReset.limit = s.constrain.uvReset.limit ∧
      s.constrain.clear.ov.limit = s.constrain.ov.limit ∧
      s.constrain.clear.ovReset.limit = s.constrain.ovReset.limit := by
    rcases clear_cases s.constrain with h | h | h <;> rw [h] <;> exact ⟨rfl, rfl, rfl, rfl⟩
  have hm : s.updateState.uv.limit = s.constrain.clear.uv.limit ∧
      s.updateState.uvReset.limit = s.constrain.clear.uvReset.limit ∧
      s.updateState.ov.limit = s.constrain.clear.ov.limit ∧
      s.updateState.ovReset.limit = s.constrain.clear.ovReset.limit :=
    ⟨congrArg Trip.limit (move_get s.constrain.clear .uv), congrArg Trip.limit (move_get s.constrain.clear .uvReset),
     congrArg Trip.limit (move_get s.constrain.clear .ov), congrArg Trip.limit (move_get s.constrain.clear .ovReset)⟩
  rw [hm.1, hm.2.1, hm.2.2.1, hm.2.2.2, hl.1, hl.2.1, hl.2.2.1, hl.2.2.2]
  exact hc

/-- C39: once the voltage that reset a voltage trip is there, the same trip does not act again while the voltage is no
worse: no chatter at one voltage. -/
theorem c39_no_chatter {s0 : Switch K} (hs : Reached s0) (i v : K) (n : Nat) (w r : Which)
    (hwr : (w = .uv ∧ r = .uvReset) ∨ (w = .ov ∧ r = .ovReset))
    (hf : (s0.get w).force = false) (hfr : (s0.get r).force = false)
    (h1 : (s0.updateState.get w).tripped = true)
    (h2 : ((s0.updateState.updateTrips i v n).get w).tripped = false)
    (i' v' : K) (n' : Nat) (hv : if w = .uv then v ≤ v' else v' ≤ v) :
    (((s0.updateState.updateTrips i v n).updateState.updateTrips i' v' n').get w).tripped = false := by
  have r1 : Reached s0.updateState := reached_apply hs .state
  have r2 : Reached (s0.updateState.updateTrips i v n) := reached_apply r1 (.trips i v n)
  have r3 : Reached (s0.updateState.updateTrips i v n).updateState := reached_apply r2 .state
  obtain ⟨o1, o2⟩ := c39_limits_ordered s0
  obtain ⟨k1, k2, k3, -⟩ := updateState_keeps s0
  obtain ⟨l1, -⟩ := updateTrips_keeps (reached_fresh r1) i v n
  obtain ⟨m1, m2, m3, -⟩ := updateState_keeps (s0.updateState.updateTrips i v n)
  obtain ⟨-, -, r, hr, hd, -⟩ := (c39_resets_exactly r1 i v n w h1).mp h2
  have h3 : ((s0.updateState.updateTrips i v n).updateState.get w).tripped = false := by
    rw [updateState_get_tripped, h2]
    rfl
  rw [Bool.eq_false_iff]
  intro c
  obtain ⟨-, -, -, hd', -⟩ := (c39_trips_exactly r3 i' v' n' w h3).mp c
  obtain ⟨-, -, -, e1⟩ := hd
  obtain ⟨-, -, -, e2⟩ := hd'
  rcases hwr with ⟨rfl, rfl⟩ | ⟨rfl, rfl⟩
  · cases r <;> simp only [ResetOf] at hr
    rw [(k3 _).1, hfr] at e1
    rw [(m3 _).1, (l1 _).1, (k3 _).1, hf] at e2
    simp only [Bool.false_eq_true, false_or, Beyond] at e1 e2
    simp only [if_true] at hv
    rw [m1] at e2
    have := (l1 .uv).2.2.2
    simp only [Switch.get] at this
    rw [this] at e2
    exact absurd (lt_of_le_of_lt o1 e1) (not_lt.mpr (hv.trans e2.le))
  · cases r <;> simp only [ResetOf] at hr
    rw [(k3 _).1, hfr] at e1
    rw [(m3 _).1, (l1 _).1, (k3 _).1, hf] at e2
    simp only [Bool.false_eq_true, false_or, Beyond] at e1 e2
    simp only [reduceCtorEq, if_false] at hv
    rw [m2] at e2
    have := (l1 .ov).2.2.2
    simp only [Switch.get] at this
    rw [this] at e2
    exact absurd (lt_of_lt_of_le e1 o2) (not_lt.mpr (e2.le.trans hv))

/-- C39: a command to open opens the switch, unless it is failed closed: at the next `updateState` if the switch does
not wait to trip, and after one more `updateTrips` in any case. -/
theorem c39_open_command {s : Switch K} (hs : Reached s) (hf : s.failClosed = false) (i v : K) (n : Nat) :
    (s.waiting = false → (s.run [.command false, .state]).position = false) ∧
    (s.run [.command false, .trips i v n, .state]).position = false := by
  have key : ∀ t : Switch K, t.failClosed = false → t.command = false → (t.waiting = false ∨ t.tripped = true) →
      t.updateState.position = false := by
    intro t h1 h2 h3
    unfold Switch.updateState
    have c1 : t.constrain.failClosed = false := h1
    have c2 : t.constrain.command = false := h2
    have c3 : t.constrain.waiting = false ∨ t.constrain.tripped = true := h3
    generalize t.constrain = u at *
    have d1 : u.clear.failClosed = false ∧ u.clear.command = false := by
      rcases clear_cases u with h | h | h <;> rw [h] <;> exact ⟨c1, c2⟩
    have d2 : u.clear.tripped = false ∧ u.clear.waiting = false := by
      cases ht : u.tripped with
      | true =>
        have : (u.tripped && !u.command) = true := by rw [ht, c2]; rfl
        unfold Switch.clear
        simp only [this, if_true]
        split_ifs <;> exact ⟨rfl, rfl⟩
      | false =>
        have hw : u.waiting = false := by
          rcases c3 with h | h
          · exact h
          · rw [ht] at h; cases h
        rcases clear_cases u with h | h | h
        · rw [h]; exact ⟨ht, hw⟩
        · rw [h]; exact ⟨rfl, rfl⟩
        · rw [h]; exact ⟨rfl, rfl⟩
    unfold Switch.move
    rw [d1.1, d2.1, d2.2, d1.2]
    simp only [Bool.false_eq_true, if_false, Bool.or_self, Bool.not_false, if_true]
    split_ifs <;> rfl
  constructor
  · intro hw
    exact key { s with command := false } hf rfl (Or.inl hw)
  · have r1 : Reached (s.apply (.command false)) := reached_apply hs _
    obtain ⟨-, k1, -, k3, -⟩ := updateTrips_keeps (reached_fresh r1) i v n
    refine key ((s.apply (.command false)).updateTrips i v n) (k1.trans hf) (k3.trans rfl) ?_
    generalize hu : s.apply (.command false) = u at *
    have hcmd : u.command = false := by rw [← hu]; rfl
    rcases tripCase u i v n with h | ⟨hn, hc, hf, ht⟩ | ⟨hn, ht, hf, g3, g4⟩ | ⟨k1, k2⟩
    · subst h
      rw [updateTrips_zero]
      exact Or.inl rfl
    · rw [hcmd] at hc; cases hc
    · rw [updateTrips_recover u i v n hn (reached_fresh r1) ht hf g3 g4]
      cases e1 : u.resetsUv v n with
      | true => left; rfl
      | false =>
        cases e2 : u.resetsOv v n with
        | true => left; rfl
        | false =>
          right
          rcases ht with q | q <;> simp [Switch.tripped, q]
    · rw [updateTrips_idle u i v n k1 k2]
      exact Or.inl rfl

/-- C39: while the switch waits to trip, one `updateState` does not obey the command to open. -/
theorem c39_open_command_waits :
    (after { demo with tripPriority := 2 } [.state, .trips 11 115 1, .command false, .state]).map
      (fun s => (s.tripped, s.waiting, s.position, s.command)) = some (false, true, true, false) := by
  decide +kernel

/-! ## Cases meeting the hypotheses -/

example : Reached (K := ℚ) (((make demo).get (by decide +kernel)).run [.state, .trips 11 115 1]) :=
  ⟨demo, (make demo).get (by decide +kernel), _, (Option.some_get _).symm, rfl⟩

/-- a trip, its latch and its manual reset -/
example : (after demo [.state, .trips 11 115 1]).map (fun s => (s.posAmps.tripped, s.just, s.position)) =
      some (true, true, false) ∧
    (after demo [.state, .trips 11 115 1, .inhibit .posAmps true, .state, .trips 0 115 1, .state]).map
      (fun s => (s.posAmps.tripped, s.position)) = some (true, false) ∧
    (after demo [.state, .trips 11 115 1, .resetCommand, .state]).map (fun s => (s.tripped, s.position)) =
      some (false, true) := by
  decide +kernel

/-- an under-voltage trip with automatic reset -/
example : (after demo [.state, .trips 0 95 1, .state, .trips 0 105 1]).map (fun s => (s.uv.tripped, s.position)) =
      some (true, false) ∧
    (after demo [.state, .trips 0 95 1, .state, .trips 0 111 1]).map (fun s => (s.uv.tripped, s.just, s.position)) =
      some (false, true, true) := by
  decide +kernel

/-- waiting for the priority -/
example : (after { demo with tripPriority := 3 } [.state, .trips 11 115 1, .trips 11 115 2]).map
      (fun s => (s.tripped, s.waiting, s.just)) = some (false, true, false) ∧
    (after { demo with tripPriority := 3 } [.state, .trips 11 115 1, .trips 11 115 2, .trips 11 115 3]).map
      (fun s => (s.tripped, s.waiting, s.just)) = some (true, false, true) := by
  decide +kernel

end Gunns.Props
