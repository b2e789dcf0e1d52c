import Verif.Plugs.Spec
import Mathlib.Data.List.Nodup

/-!
# Lemmas about jumpers, plugs and sockets
-/

namespace Gunns.Plugs

open Gunns.Plugs.Spec

/-- The first index of the list of a plug with a socket that has the plug. -/
def idx (w : World) (id : Nat) : Nat :=
  (w.plug id).sockets.findIdx (fun s => decide (w.sock s = some id))

/-- What holds of the plugs and sockets, apart from the active connection of one plug. -/
structure Pre (w : World) (but : Nat → Prop) : Prop where
  nodup : ∀ id, (w.plug id).sockets.Nodup
  excl : ∀ s t id, w.sock s = some id → w.sock t = some id → s = t
  mem : ∀ s id, w.sock s = some id → s ∈ (w.plug id).sockets
  act : ∀ id, ¬ but id → (w.plug id).active = (idx w id : Int)
  last : ∀ id, 0 ≤ (w.plug id).last ∧ (w.plug id).last ≤ (w.plug id).no

/-- What always holds. -/
def Inv (w : World) : Prop := Pre w (fun _ => False)

theorem setPlug_same (w : World) (id : Nat) (p : Plug) : (setPlug w id p).plug id = p := by
  simp [setPlug]

theorem setPlug_other (w : World) {id k : Nat} (p : Plug) (h : k ≠ id) :
    (setPlug w id p).plug k = w.plug k := by
  simp [setPlug, h]

theorem Pre.mono {w : World} {b c : Nat → Prop} (h : Pre w b) (hbc : ∀ id, b id → c id) : Pre w c :=
  ⟨h.nodup, h.excl, h.mem, fun id hn => h.act id (fun hb => hn (hbc id hb)), h.last⟩

theorem idx_congr {w v : World} {id : Nat} (h1 : (v.plug id).sockets = (w.plug id).sockets)
    (h2 : ∀ s, v.sock s = some id ↔ w.sock s = some id) : idx v id = idx w id := by
  unfold idx
  rw [h1]
  congr 1
  funext s
  exact decide_eq_decide.mpr (h2 s)

/-- Changing the requests of a plug. -/
theorem Pre.setPlug {w : World} {b : Nat → Prop} (h : Pre w b) (id : Nat) (p : Plug)
    (h1 : p.sockets = (w.plug id).sockets) (h2 : p.active = (w.plug id).active)
    (h3 : 0 ≤ p.last ∧ p.last ≤ p.no) : Pre (setPlug w id p) b := by
  have hs : ∀ k, ((Plugs.setPlug w id p).plug k).sockets = (w.plug k).sockets := by
    intro k
    by_cases hk : k = id
    · subst hk; rw [setPlug_same, h1]
    · rw [setPlug_other _ _ hk]
  refine ⟨fun k => by rw [hs]; exact h.nodup k, h.excl, fun s k hk => by rw [hs]; exact h.mem s k hk,
    fun k hk => ?_, fun k => ?_⟩
  · rw [idx_congr (hs k) (fun _ => Iff.rfl), ← h.act k hk]
    by_cases hk : k = id
    · subst hk; rw [setPlug_same, h2]
    · rw [setPlug_other _ _ hk]
  · by_cases hk : k = id
    · subst hk; rw [setPlug_same]; exact h3
    · rw [setPlug_other _ _ hk]; exact h.last k

theorem Pre.updateActive {w : World} {id : Nat} (h : Pre w (fun k => k = id)) :
    Inv (updateActive w id) := by
  have hs : ∀ k, ((Plugs.updateActive w id).plug k).sockets = (w.plug k).sockets := by
    intro k
    unfold Plugs.updateActive
    by_cases hk : k = id
    · subst hk; rw [setPlug_same]
    · rw [setPlug_other _ _ hk]
  refine ⟨fun k => by rw [hs]; exact h.nodup k, h.excl, fun s k hk => by rw [hs]; exact h.mem s k hk,
    fun k _ => ?_, fun k => ?_⟩
  · rw [idx_congr (hs k) (fun _ => Iff.rfl)]
    by_cases hk : k = id
    · subst hk
      unfold Plugs.updateActive
      rw [setPlug_same]
      rfl
    · unfold Plugs.updateActive
      rw [setPlug_other _ _ hk]
      exact h.act k hk
  · unfold Plugs.updateActive
    by_cases hk : k = id
    · subst hk; rw [setPlug_same]; exact h.last k
    · rw [setPlug_other _ _ hk]; exact h.last k

theorem getSocket_some {p : Plug} {i : Int} {s : Nat} :
    getSocket p i = some s ↔ 0 ≤ i ∧ p.sockets[i.toNat]? = some s := by
  unfold getSocket Plug.no
  constructor
  · intro h
    by_cases hc : i < 0 ∨ i ≥ (p.sockets.length : Int)
    · rw [if_pos hc] at h; cases h
    · rw [if_neg hc] at h
      rw [not_or] at hc
      exact ⟨by omega, h⟩
  · rintro ⟨h0, h1⟩
    have hl : i.toNat < p.sockets.length := by
      by_contra hc
      rw [List.getElem?_eq_none (by omega)] at h1
      cases h1
    rw [if_neg (by omega)]
    exact h1

theorem getSocket_none {p : Plug} {i : Int} :
    getSocket p i = none ↔ i < 0 ∨ (p.sockets.length : Int) ≤ i := by
  unfold getSocket Plug.no
  constructor
  · intro h
    by_contra hc
    rw [not_or] at hc
    rw [if_neg (by omega)] at h
    rw [List.getElem?_eq_none_iff] at h
    omega
  · intro h
    rw [if_pos h]

theorem means_some {p : Plug} {i : Int} {s : Nat} : Means p i (some s) ↔ getSocket p i = some s :=
  getSocket_some.symm

theorem means_no {p : Plug} : Means p p.no none := rfl

theorem means_unique {p : Plug} {i : Int} {a b : Option Nat} (ha : Means p i a) (hb : Means p i b) :
    a = b := by
  have key : ∀ s, Means p i (some s) → ¬ Means p i none := by
    intro s h1 h2
    have h3 : i = (p.sockets.length : Int) := h2
    rw [means_some] at h1
    rw [getSocket_none.mpr (Or.inr (by omega))] at h1
    cases h1
  rcases a with _ | a <;> rcases b with _ | b
  · rfl
  · exact absurd ha (key b hb)
  · exact absurd hb (key a ha)
  · rw [means_some] at ha hb
    rw [ha] at hb
    exact hb

theorem means_exists {p : Plug} {i : Int} (h0 : 0 ≤ i) (h1 : i ≤ p.no) : ∃ a, Means p i a := by
  rcases hg : getSocket p i with _ | s
  · rw [getSocket_none] at hg
    unfold Plug.no at h1
    exact ⟨none, by show i = _; omega⟩
  · exact ⟨some s, means_some.mpr hg⟩

theorem means_inj {p : Plug} (hn : p.sockets.Nodup) {i j : Int} {a : Option Nat}
    (hi : Means p i a) (hj : Means p j a) : i = j := by
  rcases a with _ | s
  · have h1 : i = _ := hi
    have h2 : j = _ := hj
    omega
  · obtain ⟨a0, a1⟩ := hi
    obtain ⟨b0, b1⟩ := hj
    have hl : i.toNat < p.sockets.length := by
      by_contra hc
      rw [List.getElem?_eq_none (by omega)] at a1
      cases a1
    have := (List.getElem?_inj hl hn).mp (a1.trans b1.symm)
    omega

/-- Where a plug is, and what its active connection says. -/
theorem in_iff {w : World} {but : Nat → Prop} (h : Pre w but) {id : Nat} (hb : ¬ but id)
    (o : Option Nat) : In w id o ↔ Means (w.plug id) (w.plug id).active o := by
  have ha := h.act id hb
  rcases o with _ | s
  · constructor
    · intro hi
      show (w.plug id).active = _
      rw [ha]
      have : idx w id = (w.plug id).sockets.length := by
        unfold idx
        rw [List.findIdx_eq_length]
        intro x _
        simpa using hi x
      rw [this]
    · intro hm s hs
      have hm' : (w.plug id).active = _ := hm
      rw [ha] at hm'
      have hlen : idx w id = (w.plug id).sockets.length := by exact_mod_cast hm'
      unfold idx at hlen
      rw [List.findIdx_eq_length] at hlen
      have := hlen s (h.mem s id hs)
      simp [hs] at this
  · constructor
    · intro hi
      have hi' : w.sock s = some id := hi
      refine ⟨by rw [ha]; omega, ?_⟩
      have hlt : idx w id < (w.plug id).sockets.length := by
        unfold idx
        rw [List.findIdx_lt_length]
        exact ⟨s, h.mem s id hi', by simp [hi']⟩
      have hp := List.findIdx_getElem (w := hlt)
      rw [ha]
      have ht : ((idx w id : Nat) : Int).toNat = idx w id := by omega
      rw [ht, List.getElem?_eq_getElem hlt]
      have hq : w.sock ((w.plug id).sockets[idx w id]) = some id := by
        exact of_decide_eq_true hp
      rw [h.excl _ _ id hq hi']
    · rintro ⟨h0, h1⟩
      rw [ha] at h1
      have ht : ((idx w id : Nat) : Int).toNat = idx w id := by omega
      rw [ht] at h1
      have hlt : idx w id < (w.plug id).sockets.length := by
        by_contra hc
        rw [List.getElem?_eq_none (by omega)] at h1
        cases h1
      have hp := List.findIdx_getElem (w := hlt)
      rw [List.getElem?_eq_getElem hlt] at h1
      have he := Option.some.inj h1
      have hq : w.sock ((w.plug id).sockets[idx w id]) = some id := by
        exact of_decide_eq_true hp
      rw [he] at hq
      exact hq

theorem in_exists (w : World) (id : Nat) : ∃ o, In w id o := by
  by_cases h : ∃ s, w.sock s = some id
  · obtain ⟨s, hs⟩ := h; exact ⟨some s, hs⟩
  · exact ⟨none, fun s hs => h ⟨s, hs⟩⟩

theorem in_unique {w : World} {but : Nat → Prop} (h : Pre w but) {id : Nat} {a b : Option Nat}
    (ha : In w id a) (hb : In w id b) : a = b := by
  rcases a with _ | a <;> rcases b with _ | b
  · rfl
  · exact absurd hb (ha b)
  · exact absurd ha (hb a)
  · rw [h.excl a b id ha hb]

/-- The same plugs are in the same sockets, apart from one plug. -/
def Same (w v : World) (id : Nat) : Prop :=
  ∀ s q, q ≠ id → (v.sock s = some q ↔ w.sock s = some q)

/-- The nodes of the sockets, the jumpers and the lists of the plugs are the same, and all of the plugs
apart from one. -/
def Still (w v : World) (id : Nat) : Prop :=
  v.inner = w.inner ∧ v.outer = w.outer ∧ v.link = w.link ∧ v.ground = w.ground
    ∧ (∀ k, (v.plug k).sockets = (w.plug k).sockets) ∧ ∀ k, k ≠ id → v.plug k = w.plug k

theorem still_refl (w : World) (id : Nat) : Still w w id := ⟨rfl, rfl, rfl, rfl, fun _ => rfl, fun _ _ => rfl⟩

theorem Still.trans {u v w : World} {id : Nat} (h1 : Still u v id) (h2 : Still v w id) : Still u w id :=
  ⟨h2.1.trans h1.1, h2.2.1.trans h1.2.1, h2.2.2.1.trans h1.2.2.1, h2.2.2.2.1.trans h1.2.2.2.1,
    fun k => (h2.2.2.2.2.1 k).trans (h1.2.2.2.2.1 k),
    fun k hk => (h2.2.2.2.2.2 k hk).trans (h1.2.2.2.2.2 k hk)⟩

theorem same_refl (w : World) (id : Nat) : Same w w id := fun _ _ _ => Iff.rfl

theorem Same.trans {u v w : World} {id : Nat} (h1 : Same u v id) (h2 : Same v w id) : Same u w id :=
  fun s q hq => (h2 s q hq).trans (h1 s q hq)

theorem still_setPlug (w : World) (id : Nat) (p : Plug) (h : p.sockets = (w.plug id).sockets) :
    Still w (setPlug w id p) id := by
  refine ⟨rfl, rfl, rfl, rfl, fun k => ?_, fun k hk => setPlug_other _ _ hk⟩
  by_cases hk : k = id
  · subst hk; rw [setPlug_same, h]
  · rw [setPlug_other _ _ hk]

theorem still_updateActive (w : World) (id : Nat) : Still w (updateActive w id) id :=
  still_setPlug w id _ rfl

/-- Emptying the socket of a plug. -/
theorem Pre.empty {w : World} {id s : Nat} (h : Inv w) (hs : w.sock s = some id) :
    Pre (setSock w s none) (fun k => k = id) ∧ Same w (setSock w s none) id
      ∧ In (setSock w s none) id none := by
  have hsock : ∀ t q, q ≠ id → ((setSock w s none).sock t = some q ↔ w.sock t = some q) := by
    intro t q hq
    show (if t = s then none else w.sock t) = some q ↔ _
    by_cases ht : t = s
    · rw [if_pos ht, ht, hs]
      constructor
      · intro hh; cases hh
      · intro hh; exact absurd (Option.some.inj hh).symm hq
    · rw [if_neg ht]
  have hsub : ∀ t q, (setSock w s none).sock t = some q → w.sock t = some q := by
    intro t q hq
    have hq' : (if t = s then none else w.sock t) = some q := hq
    by_cases ht : t = s
    · rw [if_pos ht] at hq'; cases hq'
    · rw [if_neg ht] at hq'; exact hq'
  refine ⟨⟨h.nodup, fun a b k ha hb => h.excl a b k (hsub a k ha) (hsub b k hb),
    fun a k ha => h.mem a k (hsub a k ha), fun k hk => ?_, h.last⟩, hsock, fun t ht => ?_⟩
  · rw [idx_congr (w := w) (v := setSock w s none) (id := k) rfl (fun t => hsock t k hk)]
    exact h.act k (fun hf => hf)
  · have h1 := hsub t id ht
    have : t = s := h.excl t s id h1 hs
    rw [this] at ht
    simp [setSock] at ht

/-- Putting a plug that is nowhere into a free socket of its list. -/
theorem Pre.fill {w : World} {id s : Nat} (h : Inv w) (hn : In w id none) (hf : w.sock s = none)
    (hm : s ∈ (w.plug id).sockets) :
    Pre (setSock w s (some id)) (fun k => k = id) ∧ Same w (setSock w s (some id)) id
      ∧ In (setSock w s (some id)) id (some s) := by
  have hsock : ∀ t q, q ≠ id → ((setSock w s (some id)).sock t = some q ↔ w.sock t = some q) := by
    intro t q hq
    show (if t = s then some id else w.sock t) = some q ↔ _
    by_cases ht : t = s
    · rw [if_pos ht, ht, hf]
      constructor
      · intro hh; exact absurd (Option.some.inj hh).symm hq
      · intro hh; cases hh
    · rw [if_neg ht]
  have hid : ∀ t, (setSock w s (some id)).sock t = some id → t = s := by
    intro t ht
    have ht' : (if t = s then some id else w.sock t) = some id := ht
    by_contra hc
    rw [if_neg hc] at ht'
    exact hn t ht'
  refine ⟨⟨h.nodup, fun a b k ha hb => ?_, fun a k ha => ?_, fun k hk => ?_, h.last⟩, hsock, ?_⟩
  · by_cases hk : k = id
    · subst hk; rw [hid a ha, hid b hb]
    · exact h.excl a b k ((hsock a k hk).mp ha) ((hsock b k hk).mp hb)
  · by_cases hk : k = id
    · subst hk; rw [hid a ha]; exact hm
    · exact h.mem a k ((hsock a k hk).mp ha)
  · rw [idx_congr (w := w) (v := setSock w s (some id)) (id := k) rfl (fun t => hsock t k hk)]
    exact h.act k (fun hf => hf)
  · show (if s = s then some id else w.sock s) = some id
    rw [if_pos rfl]

theorem in_congr {w v : World} {id : Nat} (h : v.sock = w.sock) (o : Option Nat) :
    In v id o ↔ In w id o := by
  unfold In; rw [h]

/-- The direct request. -/
theorem direct_spec {w : World} (h : Inv w) (id : Nat) {a dis con : Option Nat}
    {dir : Option (Option Nat)} (ha : In w id a) (hd : Means (w.plug id) (w.plug id).dis dis)
    (hc : Means (w.plug id) (w.plug id).con con) (hr : Directed (w.plug id) dir) :
    Inv (processDirect w id) ∧ Still w (processDirect w id) id
      ∧ (processDirect w id).sock = w.sock
      ∧ Means ((processDirect w id).plug id) ((processDirect w id).plug id).dis
          (asked (busyFor w id) a dis con dir).1
      ∧ Means ((processDirect w id).plug id) ((processDirect w id).plug id).con
          (asked (busyFor w id) a dis con dir).2 := by
  obtain ⟨p, hp⟩ : ∃ p, p = w.plug id := ⟨_, rfl⟩
  have hact := (in_iff h (fun hf => hf) a).mp ha
  have hlast := h.last id
  rw [← hp] at hd hc hr hact hlast
  rcases dir with _ | t
  · -- no direct request
    have hpd : ∃ d : Int, (d < 0 ∨ p.no < d) ∧ processDirect w id = setPlug w id
        { p with
          direct := d } := by
      unfold processDirect
      rw [← hp]
      by_cases hb : p.disable = true
      · refine ⟨-99, by omega, ?_⟩
        simp only [hb, if_true]
        rw [if_neg (by intro hh; exact absurd hh.1 (by decide))]
      · have hr' : p.direct < 0 ∨ p.no < p.direct := by
          rcases hr with hr | hr | hr
          · exact absurd hr hb
          · exact Or.inl hr
          · exact Or.inr hr
        refine ⟨p.direct, hr', ?_⟩
        dsimp only
        rw [if_neg hb, if_neg (by intro hh; have := hh.1; have := hh.2.1; omega)]
    obtain ⟨d, _, hpd⟩ := hpd
    rw [hpd]
    refine ⟨Pre.setPlug h id _ (by rw [hp]) (by rw [hp]) hlast, still_setPlug _ _ _ (by rw [hp]), rfl,
      ?_, ?_⟩
    · rw [setPlug_same]; exact hd
    · rw [setPlug_same]; exact hc
  · obtain ⟨hb, ht⟩ := hr
    have hb' : ¬ p.disable = true := by rw [hb]; decide
    have h0 : 0 ≤ p.direct ∧ p.direct ≤ p.no := by
      rcases t with _ | s
      · have : p.direct = _ := ht
        unfold Plug.no; omega
      · have h2 := ht.2
        have hl : p.direct.toNat < p.sockets.length := by
          by_contra hcc
          rw [List.getElem?_eq_none (by omega)] at h2
          cases h2
        have := ht.1
        unfold Plug.no; omega
    have hn := h.nodup id
    rw [← hp] at hn
    by_cases hta : t = a
    · have he : p.direct = p.active := means_inj hn (hta ▸ ht) hact
      have hpd : processDirect w id = setPlug w id p := by
        unfold processDirect
        rw [← hp]
        dsimp only
        rw [if_neg hb', if_neg (fun hh => hh.2.2 he)]
      rw [hpd]
      have hask : asked (busyFor w id) a dis con (some t) = (dis, con) := by
        unfold asked; simp [hta]
      rw [hask]
      refine ⟨Pre.setPlug h id _ (by rw [hp]) (by rw [hp]) hlast, still_setPlug _ _ _ (by rw [hp]), rfl,
        ?_, ?_⟩
      · rw [setPlug_same]; exact hd
      · rw [setPlug_same]; exact hc
    · have hne : p.direct ≠ p.active := fun he => hta (means_unique ht (he ▸ hact))
      rcases t with _ | s
      · have he : p.direct = p.no := ht
        have hpd : processDirect w id = setPlug w id
            { p with
              dis := p.active } := by
          unfold processDirect
          rw [← hp]
          dsimp only
          rw [if_neg hb', if_pos ⟨h0.1, h0.2, hne⟩, if_neg (fun hh => hh he)]
        rw [hpd]
        have hask : asked (busyFor w id) a dis con (some none) = (a, con) := by
          unfold asked; simp [hta]
        rw [hask]
        refine ⟨Pre.setPlug h id _ (by rw [hp]) (by rw [hp]) hlast, still_setPlug _ _ _ (by rw [hp]),
          rfl, ?_, ?_⟩
        · rw [setPlug_same]; exact hact
        · rw [setPlug_same]; exact hc
      · have hg := means_some.mp ht
        have hno : p.direct ≠ p.no := by
          intro he
          have := means_unique ht (show Means p p.direct none from he)
          cases this
        have hno2 : p.direct ≠ Plug.no
            { p with
              dis := p.active } := hno
        have hbusy : busyFor w id s = (w.sock s).isSome := by
          unfold busyFor
          rcases hs : w.sock s with _ | q
          · rfl
          · have : q ≠ id := by
              intro hq
              have hin : In w id (some s) := by show w.sock s = some id; rw [hs, hq]
              exact hta (in_unique h hin ha)
            simp [this]
        have hg' : getSocket
            { p with
              dis := p.active } p.direct = some s := hg
        by_cases hs : (w.sock s).isSome = true
        · have hpd : processDirect w id = setPlug w id
              { p with
                dis := p.active } := by
            unfold processDirect
            rw [← hp]
            dsimp only
            rw [if_neg hb', if_pos ⟨h0.1, h0.2, hne⟩, if_pos hno2, hg']
            simp [hs]
          rw [hpd]
          have hask : asked (busyFor w id) a dis con (some (some s)) = (a, con) := by
            unfold asked; simp [hta, hbusy, hs]
          rw [hask]
          refine ⟨Pre.setPlug h id _ (by rw [hp]) (by rw [hp]) hlast, still_setPlug _ _ _ (by rw [hp]),
            rfl, ?_, ?_⟩
          · rw [setPlug_same]; exact hact
          · rw [setPlug_same]; exact hc
        · have hpd : processDirect w id = setPlug w id
              { p with
                dis := p.active
                con := p.direct } := by
            unfold processDirect
            rw [← hp]
            dsimp only
            rw [if_neg hb', if_pos ⟨h0.1, h0.2, hne⟩, if_pos hno2, hg']
            simp [hs]
          rw [hpd]
          have hask : asked (busyFor w id) a dis con (some (some s)) = (a, some s) := by
            unfold asked; simp [hta, hbusy, hs]
          rw [hask]
          refine ⟨Pre.setPlug h id _ (by rw [hp]) (by rw [hp]) hlast, still_setPlug _ _ _ (by rw [hp]),
            rfl, ?_, ?_⟩
          · rw [setPlug_same]; exact hact
          · rw [setPlug_same]; exact ht

/-- The disconnection request. -/
theorem dis_spec {w : World} (h : Inv w) (id node : Nat) {a dis : Option Nat} (ha : In w id a)
    (hd : Means (w.plug id) (w.plug id).dis dis) :
    (processDis w id node).threw = false
      ∧ Inv (updateActive (processDis w id node).world id)
      ∧ Still w (updateActive (processDis w id node).world id) id
      ∧ Same w (updateActive (processDis w id node).world id) id
      ∧ In (updateActive (processDis w id node).world id) id (pull w.outer ⟨a, node⟩ dis).at?
      ∧ (processDis w id node).node = (pull w.outer ⟨a, node⟩ dis).node
      ∧ ((updateActive (processDis w id node).world id).plug id).dis = (w.plug id).no
      ∧ ((updateActive (processDis w id node).world id).plug id).con = (w.plug id).con := by
  obtain ⟨p, hp⟩ : ∃ p, p = w.plug id := ⟨_, rfl⟩
  have hact := (in_iff h (fun hf => hf) a).mp ha
  have hlast := h.last id
  have hn := h.nodup id
  rw [← hp] at hd hact hlast hn ⊢
  have stay : ∀ o : Out, o = ⟨setPlug w id
      { p with
        dis := p.no }, node, false⟩ → o.threw = false ∧ Inv (updateActive o.world id)
      ∧ Still w (updateActive o.world id) id ∧ Same w (updateActive o.world id) id
      ∧ In (updateActive o.world id) id a ∧ o.node = node
      ∧ ((updateActive o.world id).plug id).dis = p.no
      ∧ ((updateActive o.world id).plug id).con = p.con := by
    intro o ho
    rw [ho]
    have hi : Inv (setPlug w id
        { p with
          dis := p.no }) := Pre.setPlug h id _ (by rw [hp]) (by rw [hp]) hlast
    refine ⟨rfl, Pre.updateActive (hi.mono (fun _ hf => hf.elim)),
      (still_setPlug _ _ _ (by rw [hp])).trans (still_updateActive _ _), fun _ _ _ => Iff.rfl,
      ha, rfl, ?_, ?_⟩
    · unfold updateActive; rw [setPlug_same, setPlug_same]
    · unfold updateActive; rw [setPlug_same, setPlug_same]
  rcases dis with _ | s
  · have he : p.no = p.dis := (show p.dis = _ from hd).symm
    have hpd : processDis w id node = ⟨setPlug w id
        { p with
          dis := p.no }, node, false⟩ := by
      unfold processDis
      rw [← hp, if_neg (fun hh => hh he)]
    exact stay _ hpd
  · have hno : p.no ≠ p.dis := by
      intro he
      have := means_unique hd (show Means p p.dis none from he.symm)
      cases this
    by_cases hcase : a = none ∨ a = some s
    · have hpull : pull w.outer ⟨a, node⟩ (some s) = ⟨none, w.outer s⟩ := by
        unfold pull; dsimp only; rw [if_pos hcase]
      rw [hpull]
      have hcond : ¬ (p.active ≠ p.dis ∧ p.active ≠ p.no) := by
        rintro ⟨h1, h2⟩
        rcases hcase with h3 | h3
        · subst h3; exact h2 hact
        · subst h3; exact h1 (means_inj hn hact hd)
      have hg := means_some.mp hd
      have hpd : processDis w id node = ⟨setPlug (requestDisconnection w s id) id
          { p with
            last := p.dis
            dis := p.no }, w.outer s, false⟩ := by
        unfold processDis
        rw [← hp, if_pos hno, if_neg hcond, hg]
      rw [hpd]
      have hlast' : 0 ≤ p.dis ∧ p.dis ≤ p.no := by
        rw [getSocket_some] at hg
        have hl : p.dis.toNat < p.sockets.length := by
          by_contra hcc
          rw [List.getElem?_eq_none (by omega)] at hg
          cases hg.2
        unfold Plug.no; omega
      -- the socket
      have hreq : Pre (requestDisconnection w s id) (fun k => k = id)
          ∧ Same w (requestDisconnection w s id) id ∧ In (requestDisconnection w s id) id none
          ∧ Still w (requestDisconnection w s id) id
          ∧ (requestDisconnection w s id).plug = w.plug := by
        unfold requestDisconnection
        by_cases hs : w.sock s = some id
        · rw [if_pos hs]
          obtain ⟨e1, e2, e3⟩ := Pre.empty h hs
          exact ⟨e1, e2, e3, ⟨rfl, rfl, rfl, rfl, fun _ => rfl, fun _ _ => rfl⟩, rfl⟩
        · rw [if_neg hs]
          refine ⟨h.mono (fun _ hf => hf.elim), same_refl _ _, ?_, still_refl _ _, rfl⟩
          rcases hcase with h3 | h3
          · subst h3; exact ha
          · subst h3; exact absurd ha hs
      obtain ⟨r1, r2, r3, r4, r5⟩ := hreq
      have hpp : p = (requestDisconnection w s id).plug id := by rw [r5, hp]
      have hi := Pre.setPlug r1 id
        { p with
          last := p.dis
          dis := p.no } (by rw [hpp]) (by rw [hpp]) hlast'
      refine ⟨rfl, Pre.updateActive hi,
        r4.trans ((still_setPlug _ _ _ (by rw [hpp])).trans (still_updateActive _ _)), r2, r3, rfl,
        ?_, ?_⟩
      · unfold updateActive; rw [setPlug_same, setPlug_same]
      · unfold updateActive; rw [setPlug_same, setPlug_same]
    · have hpull : pull w.outer ⟨a, node⟩ (some s) = ⟨a, node⟩ := by
        unfold pull; dsimp only; rw [if_neg hcase]
      rw [hpull]
      rw [not_or] at hcase
      have hcond : p.active ≠ p.dis ∧ p.active ≠ p.no := by
        constructor
        · intro he; exact hcase.2 (means_unique hact (he ▸ hd))
        · intro he; exact hcase.1 (means_unique hact (he ▸ means_no))
      have hpd : processDis w id node = ⟨setPlug w id
          { p with
            dis := p.no }, node, false⟩ := by
        unfold processDis
        rw [← hp, if_pos hno, if_pos hcond]
      exact stay _ hpd

/-- The connection request. -/
theorem con_spec {w : World} (h : Inv w) (id node : Nat) {a con : Option Nat} (ha : In w id a)
    (hc : Means (w.plug id) (w.plug id).con con) :
    (processCon w id node).threw = false
      ∧ Inv (updateActive (processCon w id node).world id)
      ∧ Still w (updateActive (processCon w id node).world id) id
      ∧ Same w (updateActive (processCon w id node).world id) id
      ∧ In (updateActive (processCon w id node).world id) id
          (put w.inner (busyFor w id) ⟨a, node⟩ con).at?
      ∧ (processCon w id node).node = (put w.inner (busyFor w id) ⟨a, node⟩ con).node
      ∧ ((updateActive (processCon w id node).world id).plug id).dis = (w.plug id).dis
      ∧ ((updateActive (processCon w id node).world id).plug id).con = (w.plug id).no := by
  obtain ⟨p, hp⟩ : ∃ p, p = w.plug id := ⟨_, rfl⟩
  have hact := (in_iff h (fun hf => hf) a).mp ha
  have hlast := h.last id
  have hn := h.nodup id
  rw [← hp] at hc hact hlast hn ⊢
  have stay : ∀ o : Out, o = ⟨setPlug w id
      { p with
        con := p.no }, node, false⟩ → o.threw = false ∧ Inv (updateActive o.world id)
      ∧ Still w (updateActive o.world id) id ∧ Same w (updateActive o.world id) id
      ∧ In (updateActive o.world id) id a ∧ o.node = node
      ∧ ((updateActive o.world id).plug id).dis = p.dis
      ∧ ((updateActive o.world id).plug id).con = p.no := by
    intro o ho
    rw [ho]
    have hi : Inv (setPlug w id
        { p with
          con := p.no }) := Pre.setPlug h id _ (by rw [hp]) (by rw [hp]) hlast
    refine ⟨rfl, Pre.updateActive (hi.mono (fun _ hf => hf.elim)),
      (still_setPlug _ _ _ (by rw [hp])).trans (still_updateActive _ _), fun _ _ _ => Iff.rfl,
      ha, rfl, ?_, ?_⟩
    · unfold updateActive; rw [setPlug_same, setPlug_same]
    · unfold updateActive; rw [setPlug_same, setPlug_same]
  rcases con with _ | s
  · have he : p.no = p.con := (show p.con = _ from hc).symm
    have hpd : processCon w id node = ⟨setPlug w id
        { p with
          con := p.no }, node, false⟩ := by
      unfold processCon
      rw [← hp, if_neg (fun hh => hh he)]
    exact stay _ hpd
  · have hno : p.no ≠ p.con := by
      intro he
      have := means_unique hc (show Means p p.con none from he.symm)
      cases this
    have hg := means_some.mp hc
    by_cases hcase : a = none ∧ busyFor w id s = false
    · obtain ⟨ha0, hb⟩ := hcase
      subst ha0
      have hput : put w.inner (busyFor w id) ⟨none, node⟩ (some s) = ⟨some s, w.inner s⟩ := by
        unfold put; dsimp only; rw [if_pos ⟨rfl, hb⟩]
      rw [hput]
      have hfree : w.sock s = none := by
        rcases hs : w.sock s with _ | q
        · rfl
        · unfold busyFor at hb
          rw [hs] at hb
          have hq : q = id := by simpa using hb
          rw [hq] at hs
          exact absurd hs (ha s)
      have hpd : processCon w id node = ⟨setPlug (setSock w s (some id)) id
          { p with
            last := p.no
            con := p.no }, w.inner s, false⟩ := by
        unfold processCon
        rw [← hp, if_pos hno, if_neg (fun hh => hh (show p.active = p.no from hact).symm), hg]
        simp [hfree]
      rw [hpd]
      have hm : s ∈ (w.plug id).sockets := by
        rw [← hp]
        rw [getSocket_some] at hg
        exact List.mem_of_getElem? hg.2
      obtain ⟨e1, e2, e3⟩ := Pre.fill h ha hfree hm
      have hpp : p = (setSock w s (some id)).plug id := hp
      have hi := Pre.setPlug e1 id
        { p with
          last := p.no
          con := p.no } (by rw [hpp]) (by rw [hpp]) ⟨Int.natCast_nonneg _, Int.le_refl _⟩
      have hst : Still w (setSock w s (some id)) id :=
        ⟨rfl, rfl, rfl, rfl, fun _ => rfl, fun _ _ => rfl⟩
      refine ⟨rfl, Pre.updateActive hi,
        hst.trans ((still_setPlug _ _ _ (by rw [hpp])).trans (still_updateActive _ _)), e2, e3, rfl,
        ?_, ?_⟩
      · unfold updateActive; rw [setPlug_same, setPlug_same]
      · unfold updateActive; rw [setPlug_same, setPlug_same]
    · have hput : put w.inner (busyFor w id) ⟨a, node⟩ (some s) = ⟨a, node⟩ := by
        unfold put; dsimp only; rw [if_neg hcase]
      rw [hput]
      have hpd : processCon w id node = ⟨setPlug w id
          { p with
            con := p.no }, node, false⟩ := by
        unfold processCon
        rw [← hp, if_pos hno]
        by_cases hca : p.no ≠ p.active
        · rw [if_pos hca]
        · rw [if_neg hca, hg]
          have ha0 : a = none := by
            refine means_unique hact ?_
            show p.active = _
            exact (not_not.mp hca).symm
          have hs : (w.sock s).isSome = true := by
            rcases hs : w.sock s with _ | q
            · exfalso
              refine hcase ⟨ha0, ?_⟩
              unfold busyFor; rw [hs]
            · rfl
          simp [hs]
      exact stay _ hpd

theorem busyFor_same {w v : World} {id : Nat} (h : Same w v id) : busyFor v id = busyFor w id := by
  funext s
  have key : ∀ x : World, (busyFor x id s = true ↔ ∃ q, q ≠ id ∧ x.sock s = some q) := by
    intro x
    unfold busyFor
    rcases hx : x.sock s with _ | q
    · simp
    · simp
  have : busyFor v id s = true ↔ busyFor w id s = true := by
    rw [key, key]
    constructor
    · rintro ⟨q, h1, h2⟩; exact ⟨q, h1, (h s q h1).mp h2⟩
    · rintro ⟨q, h1, h2⟩; exact ⟨q, h1, (h s q h1).mpr h2⟩
  exact Bool.eq_iff_iff.mpr this

/-- An update of a plug is a turn of the specification. -/
theorem update_spec {w : World} (h : Inv w) (id node : Nat) {a dis con : Option Nat}
    {dir : Option (Option Nat)} (ha : In w id a) (hd : Means (w.plug id) (w.plug id).dis dis)
    (hc : Means (w.plug id) (w.plug id).con con) (hr : Directed (w.plug id) dir) :
    (update w id node).threw = false ∧ Inv (update w id node).world
      ∧ Still w (update w id node).world id ∧ Same w (update w id node).world id
      ∧ In (update w id node).world id
          (turn w.inner w.outer (busyFor w id) ⟨a, node⟩ dis con dir).at?
      ∧ (update w id node).node
          = (turn w.inner w.outer (busyFor w id) ⟨a, node⟩ dis con dir).node
      ∧ ((update w id node).world.plug id).dis = (w.plug id).no
      ∧ ((update w id node).world.plug id).con = (w.plug id).no := by
  obtain ⟨a1, a2, a3, a4, a5⟩ := direct_spec h id ha hd hc hr
  obtain ⟨u, hu⟩ : ∃ u, u = processDirect w id := ⟨_, rfl⟩
  rw [← hu] at a1 a2 a3 a4 a5
  have hau : In u id a := (in_congr a3 a).mpr ha
  obtain ⟨b1, b2, b3, b4, b5, b6, b7, b8⟩ := dis_spec a1 id node hau a4
  obtain ⟨x, hx⟩ : ∃ x, x = processDis u id node := ⟨_, rfl⟩
  obtain ⟨v, hv⟩ : ∃ v, v = updateActive (processDis u id node).world id := ⟨_, rfl⟩
  rw [← hv] at b2 b3 b4 b5 b7 b8
  have hcv : Means (v.plug id) (v.plug id).con (asked (busyFor w id) a dis con dir).2 := by
    rw [b8]
    have hsk := b3.2.2.2.2.1 id
    have key : ∀ (p q : Plug) (i : Int) (o : Option Nat), p.sockets = q.sockets → Means q i o →
        Means p i o := by
      intro p q i o hpq hm
      rcases o with _ | s
      · show i = _; rw [hpq]; exact hm
      · exact ⟨hm.1, by rw [hpq]; exact hm.2⟩
    exact key _ _ _ _ hsk a5
  obtain ⟨c1, c2, c3, c4, c5, c6, c7, c8⟩ := con_spec b2 id x.node b5 hcv
  have hsame1 : Same w u id := by intro s q _; rw [a3]
  have hbusy : busyFor v id = busyFor w id := busyFor_same (hsame1.trans b4)
  have hin : v.inner = w.inner := b3.1.trans a2.1
  have hou : u.outer = w.outer := a2.2.1
  rw [hbusy, hin] at c5 c6
  rw [hou] at b5 b6 c5 c6
  have hxn : x.node = (pull w.outer ⟨a, node⟩ (asked (busyFor w id) a dis con dir).1).node := by
    rw [hx]; exact b6
  have hturn : turn w.inner w.outer (busyFor w id) ⟨a, node⟩ dis con dir
      = put w.inner (busyFor w id)
          ⟨(pull w.outer ⟨a, node⟩ (asked (busyFor w id) a dis con dir).1).at?, x.node⟩
          (asked (busyFor w id) a dis con dir).2 := by
    unfold turn; rw [hxn]
  have hupd : update w id node
      = ⟨updateActive (processCon v id x.node).world id, (processCon v id x.node).node, false⟩ := by
    unfold update
    rw [← hu]
    simp only
    rw [b1, if_neg (by decide), ← hv, ← hx, c1, if_neg (by decide)]
  rw [hupd, hturn]
  have hno : ∀ y : World, Still w y id → (y.plug id).no = (w.plug id).no := by
    intro y hy; unfold Plug.no; rw [hy.2.2.2.2.1 id]
  refine ⟨rfl, c2, a2.trans (b3.trans c3), hsame1.trans (b4.trans c4), c5, c6, ?_, ?_⟩
  · rw [c7, b7, hno u a2]
  · rw [c8, hno v (a2.trans b3)]

end Gunns.Plugs
