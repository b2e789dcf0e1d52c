import Verif.Plugs.Lemmas

/-!
# Jumpers, plugs and sockets over many events
-/

namespace Gunns.Plugs

open Gunns.Plugs.Spec

theorem inv_congr {w v : World} (h : Inv w) (hp : v.plug = w.plug) (hs : v.sock = w.sock) : Inv v := by
  refine ⟨fun k => by rw [hp]; exact h.nodup k, fun a b k => by rw [hs]; exact h.excl a b k,
    fun a k => by rw [hs, hp]; exact h.mem a k, fun k hk => ?_, fun k => by rw [hp]; exact h.last k⟩
  rw [idx_congr (w := w) (by rw [hp]) (fun s => by rw [hs]), hp]
  exact h.act k hk

/-- An index is one of the connections of a plug. -/
def Rng (p : Plug) (i : Int) : Prop := 0 ≤ i ∧ i ≤ p.no

theorem rng_iff {p : Plug} {i : Int} : Rng p i ↔ ∃ o, Means p i o := by
  constructor
  · rintro ⟨h0, h1⟩; exact means_exists h0 h1
  · rintro ⟨o, ho⟩
    rcases o with _ | s
    · have : i = _ := ho
      unfold Rng Plug.no; omega
    · have h2 := ho.2
      have hl : i.toNat < p.sockets.length := by
        by_contra hcc
        rw [List.getElem?_eq_none (by omega)] at h2
        cases h2
      have := ho.1
      unfold Rng Plug.no; omega

theorem rng_no (p : Plug) : Rng p p.no := ⟨Int.natCast_nonneg _, Int.le_refl _⟩

theorem act_rng {w : World} (h : Inv w) (id : Nat) : Rng (w.plug id) (w.plug id).active := by
  obtain ⟨o, ho⟩ := in_exists w id
  exact rng_iff.mpr ⟨o, (in_iff h (fun hf => hf) o).mp ho⟩

theorem directed_exists (p : Plug) : ∃ d, Directed p d := by
  by_cases h : p.disable = true ∨ p.direct < 0 ∨ (p.sockets.length : Int) < p.direct
  · exact ⟨none, h⟩
  · rw [not_or, not_or] at h
    obtain ⟨t, ht⟩ := means_exists (p := p) (i := p.direct) (by omega) (by unfold Plug.no; omega)
    refine ⟨some t, ?_, ht⟩
    rcases hb : p.disable
    · rfl
    · exact absurd hb h.1

/-- The direct request keeps what holds, whatever the requests. -/
theorem direct_inv {w : World} (h : Inv w) (id : Nat) :
    Inv (processDirect w id) ∧ Still w (processDirect w id) id ∧ (processDirect w id).sock = w.sock := by
  have hlast := h.last id
  unfold processDirect
  dsimp only
  have key : ∀ p : Plug, p.sockets = (w.plug id).sockets → p.active = (w.plug id).active →
      p.last = (w.plug id).last → Inv (setPlug w id p) ∧ Still w (setPlug w id p) id
        ∧ (setPlug w id p).sock = w.sock := by
    intro p h1 h2 h3
    refine ⟨Pre.setPlug h id p h1 h2 ?_, still_setPlug _ _ _ h1, rfl⟩
    have : p.no = (w.plug id).no := by unfold Plug.no; rw [h1]
    rw [h3, this]; exact hlast
  by_cases hb : (w.plug id).disable = true
  · rw [if_pos hb]
    split
    · split
      · split
        · exact key _ rfl rfl rfl
        · split
          · exact key _ rfl rfl rfl
          · exact key _ rfl rfl rfl
      · exact key _ rfl rfl rfl
    · exact key _ rfl rfl rfl
  · rw [if_neg hb]
    split
    · split
      · split
        · exact key _ rfl rfl rfl
        · split
          · exact key _ rfl rfl rfl
          · exact key _ rfl rfl rfl
      · exact key _ rfl rfl rfl
    · exact key _ rfl rfl rfl

/-- When the disconnection request throws. -/
theorem dis_threw {w : World} (h : Inv w) (id node : Nat) :
    (processDis w id node).threw = true
      ↔ ¬ Rng (w.plug id) (w.plug id).dis ∧ (w.plug id).active = (w.plug id).no := by
  by_cases hr : Rng (w.plug id) (w.plug id).dis
  · obtain ⟨o, ho⟩ := rng_iff.mp hr
    obtain ⟨a, ha⟩ := in_exists w id
    rw [(dis_spec h id node ha ho).1]
    exact ⟨fun hf => (by cases hf), fun hf => absurd hr hf.1⟩
  · have hno : (w.plug id).no ≠ (w.plug id).dis := by
      intro he; rw [← he] at hr; exact hr (rng_no _)
    have hact : (w.plug id).active ≠ (w.plug id).dis := by
      intro he; rw [← he] at hr; exact hr (act_rng h id)
    have hg : getSocket (w.plug id) (w.plug id).dis = none := by
      rw [getSocket_none]; unfold Rng at hr; unfold Plug.no at hr hno; omega
    unfold processDis
    dsimp only
    rw [if_pos hno, hg]
    by_cases ha : (w.plug id).active = (w.plug id).no
    · rw [if_neg (fun hh => hh.2 ha)]
      exact ⟨fun _ => ⟨hr, ha⟩, fun _ => rfl⟩
    · rw [if_pos ⟨hact, ha⟩]
      exact ⟨fun hf => (by cases hf), fun hf => absurd hf.2 ha⟩

theorem dis_threw_world {w : World} (id node : Nat) (h : (processDis w id node).threw = true) :
    (processDis w id node).world = w := by
  unfold processDis at h ⊢
  dsimp only at h ⊢
  by_cases h1 : (w.plug id).no ≠ (w.plug id).dis
  · rw [if_pos h1] at h ⊢
    by_cases h2 : (w.plug id).active ≠ (w.plug id).dis ∧ (w.plug id).active ≠ (w.plug id).no
    · rw [if_pos h2] at h; cases h
    · rw [if_neg h2] at h ⊢
      rcases hg : getSocket (w.plug id) (w.plug id).dis with _ | s
      · rfl
      · rw [hg] at h; cases h
  · rw [if_neg h1] at h; cases h

theorem dis_inv {w : World} (h : Inv w) (id node : Nat) (ht : (processDis w id node).threw = false) :
    Inv (updateActive (processDis w id node).world id)
      ∧ Still w (updateActive (processDis w id node).world id) id
      ∧ Same w (updateActive (processDis w id node).world id) id
      ∧ ((updateActive (processDis w id node).world id).plug id).dis = (w.plug id).no
      ∧ ((updateActive (processDis w id node).world id).plug id).con = (w.plug id).con := by
  by_cases hr : Rng (w.plug id) (w.plug id).dis
  · obtain ⟨o, ho⟩ := rng_iff.mp hr
    obtain ⟨a, ha⟩ := in_exists w id
    obtain ⟨_, h2, h3, h4, _, _, h7, h8⟩ := dis_spec h id node ha ho
    exact ⟨h2, h3, h4, h7, h8⟩
  · have hno : (w.plug id).no ≠ (w.plug id).dis := by
      intro he; rw [← he] at hr; exact hr (rng_no _)
    have hact : (w.plug id).active ≠ (w.plug id).dis := by
      intro he; rw [← he] at hr; exact hr (act_rng h id)
    have ha : (w.plug id).active ≠ (w.plug id).no := by
      intro ha
      rw [(dis_threw h id node).mpr ⟨hr, ha⟩] at ht
      cases ht
    have hpd : (processDis w id node).world = setPlug w id
        { w.plug id with
          dis := (w.plug id).no } := by
      unfold processDis
      dsimp only
      rw [if_pos hno, if_pos ⟨hact, ha⟩]
    rw [hpd]
    have hi : Inv (setPlug w id
        { w.plug id with
          dis := (w.plug id).no }) := Pre.setPlug h id _ rfl rfl (h.last id)
    refine ⟨Pre.updateActive (hi.mono (fun _ hf => hf.elim)),
      (still_setPlug w id
        { w.plug id with
          dis := (w.plug id).no } rfl).trans (still_updateActive _ _), fun _ _ _ => Iff.rfl, ?_, ?_⟩
    · unfold updateActive; rw [setPlug_same, setPlug_same]
    · unfold updateActive; rw [setPlug_same, setPlug_same]

/-- When the connection request throws. -/
theorem con_threw {w : World} (h : Inv w) (id node : Nat) :
    (processCon w id node).threw = true
      ↔ ¬ Rng (w.plug id) (w.plug id).con ∧ (w.plug id).active = (w.plug id).no := by
  by_cases hr : Rng (w.plug id) (w.plug id).con
  · obtain ⟨o, ho⟩ := rng_iff.mp hr
    obtain ⟨a, ha⟩ := in_exists w id
    rw [(con_spec h id node ha ho).1]
    exact ⟨fun hf => (by cases hf), fun hf => absurd hr hf.1⟩
  · have hno : (w.plug id).no ≠ (w.plug id).con := by
      intro he; rw [← he] at hr; exact hr (rng_no _)
    have hg : getSocket (w.plug id) (w.plug id).con = none := by
      rw [getSocket_none]; unfold Rng at hr; unfold Plug.no at hr hno; omega
    unfold processCon
    dsimp only
    rw [if_pos hno, hg]
    by_cases ha : (w.plug id).active = (w.plug id).no
    · rw [if_neg (fun hh => hh ha.symm)]
      exact ⟨fun _ => ⟨hr, ha⟩, fun _ => rfl⟩
    · rw [if_pos (fun hh => ha hh.symm)]
      exact ⟨fun hf => (by cases hf), fun hf => absurd hf.2 ha⟩

theorem con_threw_world {w : World} (id node : Nat) (h : (processCon w id node).threw = true) :
    (processCon w id node).world = w := by
  unfold processCon at h ⊢
  dsimp only at h ⊢
  by_cases h1 : (w.plug id).no ≠ (w.plug id).con
  · rw [if_pos h1] at h ⊢
    by_cases h2 : (w.plug id).no ≠ (w.plug id).active
    · rw [if_pos h2] at h; cases h
    · rw [if_neg h2] at h ⊢
      rcases hg : getSocket (w.plug id) (w.plug id).con with _ | s
      · rfl
      · rw [hg] at h
        by_cases h3 : (w.sock s).isSome = true
        · simp only [h3, if_true] at h; cases h
        · simp only [if_neg h3] at h; cases h
  · rw [if_neg h1] at h; cases h

theorem con_inv {w : World} (h : Inv w) (id node : Nat) (ht : (processCon w id node).threw = false) :
    Inv (updateActive (processCon w id node).world id)
      ∧ Still w (updateActive (processCon w id node).world id) id
      ∧ Same w (updateActive (processCon w id node).world id) id := by
  by_cases hr : Rng (w.plug id) (w.plug id).con
  · obtain ⟨o, ho⟩ := rng_iff.mp hr
    obtain ⟨a, ha⟩ := in_exists w id
    obtain ⟨_, h2, h3, h4, _⟩ := con_spec h id node ha ho
    exact ⟨h2, h3, h4⟩
  · have hno : (w.plug id).no ≠ (w.plug id).con := by
      intro he; rw [← he] at hr; exact hr (rng_no _)
    have ha : (w.plug id).active ≠ (w.plug id).no := by
      intro ha
      rw [(con_threw h id node).mpr ⟨hr, ha⟩] at ht
      cases ht
    have hpd : (processCon w id node).world = setPlug w id
        { w.plug id with
          con := (w.plug id).no } := by
      unfold processCon
      dsimp only
      rw [if_pos hno, if_pos (fun hh => ha hh.symm)]
    rw [hpd]
    have hi : Inv (setPlug w id
        { w.plug id with
          con := (w.plug id).no }) := Pre.setPlug h id _ rfl rfl (h.last id)
    exact ⟨Pre.updateActive (hi.mono (fun _ hf => hf.elim)),
      (still_setPlug w id
        { w.plug id with
          con := (w.plug id).no } rfl).trans (still_updateActive _ _), fun _ _ _ => Iff.rfl⟩

/-- What holds is kept by an update, whatever the requests and whether or not it throws. -/
theorem update_inv {w : World} (h : Inv w) (id node : Nat) :
    Inv (update w id node).world ∧ Still w (update w id node).world id
      ∧ Same w (update w id node).world id := by
  obtain ⟨a1, a2, a3⟩ := direct_inv h id
  have hsame1 : Same w (processDirect w id) id := by intro s q _; rw [a3]
  unfold update
  dsimp only
  rcases ht : (processDis (processDirect w id) id node).threw
  · rw [if_neg (by decide)]
    obtain ⟨b1, b2, b3, _⟩ := dis_inv a1 id node ht
    rcases hc : (processCon (updateActive (processDis (processDirect w id) id node).world id) id
      (processDis (processDirect w id) id node).node).threw
    · rw [if_neg (by decide)]
      obtain ⟨c1, c2, c3⟩ := con_inv b1 id _ hc
      exact ⟨c1, a2.trans (b2.trans c2), hsame1.trans (b3.trans c3)⟩
    · rw [if_pos rfl, con_threw_world _ _ hc]
      exact ⟨b1, a2.trans b2, hsame1.trans b3⟩
  · rw [if_pos rfl, dis_threw_world _ _ ht]
    exact ⟨a1, a2, hsame1⟩

/-- A world that only had jumpers moved. -/
def LinkOnly (w v : World) : Prop :=
  v.plug = w.plug ∧ v.sock = w.sock ∧ v.inner = w.inner ∧ v.outer = w.outer ∧ v.ground = w.ground

theorem setPort_only (w : World) (j : Nat) (k : Bool) (n : Nat) : LinkOnly w (setPort w j k n) := by
  unfold setPort
  dsimp only
  split
  · exact ⟨rfl, rfl, rfl, rfl, rfl⟩
  · exact ⟨rfl, rfl, rfl, rfl, rfl⟩

theorem updatePort_inv {w : World} (h : Inv w) (j : Nat) (k : Bool) : Inv (updatePort w j k).1 := by
  unfold updatePort
  rcases (w.link j).plug k with _ | id
  · exact h
  · dsimp only
    have hu := (update_inv h id ((w.link j).node k)).1
    split
    · exact hu
    · split
      · obtain ⟨h1, h2, _⟩ := setPort_only (update w id ((w.link j).node k)).world j k
          (update w id ((w.link j).node k)).node
        exact inv_congr hu h1 h2
      · exact hu

theorem updatePlugs_inv {w : World} (h : Inv w) (j : Nat) : Inv (updatePlugs w j).1 := by
  unfold updatePlugs
  dsimp only
  split
  · exact updatePort_inv h j false
  · exact updatePort_inv (updatePort_inv h j false) j true

theorem initPlug_inv {w : World} (h : Inv w) (id node : Nat) (i : Int) :
    Inv (initPlug w id node i).world := by
  unfold initPlug
  dsimp only
  have h1 : Inv (setPlug w id
      { w.plug id with
        direct := -99
        disable := false }) := Pre.setPlug h id _ rfl rfl (h.last id)
  split
  · exact h1
  · obtain ⟨w1, hw1⟩ : ∃ w1, w1 = setPlug w id
      { w.plug id with
        direct := -99
        disable := false } := ⟨_, rfl⟩
    rw [← hw1] at h1 ⊢
    have h2 : Inv (setPlug w1 id
      { w1.plug id with
        con := i }) := Pre.setPlug h1 id _ rfl rfl (h1.last id)
    obtain ⟨w2, hw2⟩ : ∃ w2, w2 = setPlug w1 id
      { w1.plug id with
        con := i } := ⟨_, rfl⟩
    rw [← hw2] at h2 ⊢
    rcases hc : (processCon w2 id node).threw
    · rw [if_neg (by decide)]
      obtain ⟨c1, _⟩ := con_inv h2 id node hc
      split
      · exact c1
      · exact c1
    · rw [if_pos rfl, con_threw_world _ _ hc]
      exact h2

theorem initPort_inv {w : World} (h : Inv w) (j : Nat) (k : Bool) (i : Int) :
    Inv (initPort w j k i).1 := by
  unfold initPort
  rcases (w.link j).plug k with _ | id
  · exact h
  · dsimp only
    have hu := initPlug_inv h id ((w.link j).node k) i
    split
    · exact hu
    · obtain ⟨h1, h2, _⟩ := setPort_only (initPlug w id ((w.link j).node k) i).world j k
          (initPlug w id ((w.link j).node k) i).node
      exact inv_congr hu h1 h2

theorem restartPort_inv {w : World} (h : Inv w) (j : Nat) (k : Bool) : Inv (restartPort w j k) := by
  unfold restartPort
  rcases (w.link j).plug k with _ | id
  · exact h
  · dsimp only
    split
    · exact Pre.setPlug h id _ rfl rfl (h.last id)
    · exact Pre.setPlug h id _ rfl rfl (h.last id)

theorem happen_inv {w : World} (h : Inv w) (e : Ev) : Inv (happen w e) := by
  cases e with
  | start j a b =>
    show Inv (initJumper w j a b).1
    unfold initJumper
    dsimp only
    split
    · exact initPort_inv h j false a
    · exact initPort_inv (initPort_inv h j false a) j true b
  | request id con dis direct disable => exact Pre.setPlug h id _ rfl rfl (h.last id)
  | step j => exact updatePlugs_inv h j
  | restart j => exact updatePlugs_inv (restartPort_inv (restartPort_inv h j false) j true) j
  | movePort j k n =>
    obtain ⟨h1, h2, _⟩ := setPort_only w j k n
    exact inv_congr h h1 h2
  | lock j b => exact inv_congr h rfl rfl
  | moveSocket s a b => exact inv_congr h rfl rfl

theorem fresh_inv {w : World} (h : Fresh w) : Inv w := by
  refine ⟨fun id => (h.2 id).1, fun s t id hs => ?_, fun s id hs => ?_, fun id _ => ?_, fun id => ?_⟩
  · rw [h.1 s] at hs; cases hs
  · rw [h.1 s] at hs; cases hs
  · rw [(h.2 id).2.1]
    have : idx w id = (w.plug id).sockets.length := by
      unfold idx
      rw [List.findIdx_eq_length]
      intro x _
      simp [h.1 x]
    rw [this]
  · rw [(h.2 id).2.2]
    exact rng_no _

theorem happens_inv {w : World} (h : Inv w) (es : List Ev) : Inv (happens w es) := by
  unfold happens
  induction es generalizing w with
  | nil => exact h
  | cons e es ih => exact ih (happen_inv h e)

theorem reach_inv {w : World} (h : Reach w) : Inv w := by
  obtain ⟨w0, es, hf, rfl⟩ := h
  exact happens_inv (fresh_inv hf) es

/-! ## The stored direct request -/

theorem processDirect_direct (w : World) (id : Nat) (h : (w.plug id).disable = false) :
    ((processDirect w id).plug id).direct = (w.plug id).direct
      ∧ ((processDirect w id).plug id).disable = (w.plug id).disable := by
  have hb : ¬ (w.plug id).disable = true := by rw [h]; decide
  unfold processDirect
  dsimp only
  rw [if_neg hb]
  have key : ∀ p : Plug, p.direct = (w.plug id).direct → p.disable = (w.plug id).disable →
      ((setPlug w id p).plug id).direct = (w.plug id).direct
        ∧ ((setPlug w id p).plug id).disable = (w.plug id).disable := by
    intro p h1 h2; rw [setPlug_same]; exact ⟨h1, h2⟩
  split
  · split
    · split
      · exact key _ rfl rfl
      · split
        · exact key _ rfl rfl
        · exact key _ rfl rfl
    · exact key _ rfl rfl
  · exact key _ rfl rfl

theorem updateActive_direct (w : World) (id : Nat) :
    ((updateActive w id).plug id).direct = (w.plug id).direct
      ∧ ((updateActive w id).plug id).disable = (w.plug id).disable := by
  unfold updateActive; rw [setPlug_same]; exact ⟨rfl, rfl⟩

theorem processDis_direct (w : World) (id node : Nat) :
    ((processDis w id node).world.plug id).direct = (w.plug id).direct
      ∧ ((processDis w id node).world.plug id).disable = (w.plug id).disable := by
  unfold processDis
  dsimp only
  split
  · split
    · dsimp only; rw [setPlug_same]; exact ⟨rfl, rfl⟩
    · split
      · exact ⟨rfl, rfl⟩
      · dsimp only; rw [setPlug_same]; exact ⟨rfl, rfl⟩
  · dsimp only; rw [setPlug_same]; exact ⟨rfl, rfl⟩

theorem processCon_direct (w : World) (id node : Nat) :
    ((processCon w id node).world.plug id).direct = (w.plug id).direct
      ∧ ((processCon w id node).world.plug id).disable = (w.plug id).disable := by
  unfold processCon
  dsimp only
  split
  · split
    · dsimp only; rw [setPlug_same]; exact ⟨rfl, rfl⟩
    · split
      · exact ⟨rfl, rfl⟩
      · split
        · dsimp only; rw [setPlug_same]; exact ⟨rfl, rfl⟩
        · dsimp only; rw [setPlug_same]; exact ⟨rfl, rfl⟩
  · dsimp only; rw [setPlug_same]; exact ⟨rfl, rfl⟩

theorem update_direct (w : World) (id node : Nat) (h : (w.plug id).disable = false) :
    ((update w id node).world.plug id).direct = (w.plug id).direct
      ∧ ((update w id node).world.plug id).disable = (w.plug id).disable := by
  obtain ⟨a1, a2⟩ := processDirect_direct w id h
  obtain ⟨b1, b2⟩ := processDis_direct (processDirect w id) id node
  unfold update
  dsimp only
  split
  · exact ⟨b1.trans a1, b2.trans a2⟩
  · obtain ⟨c1, c2⟩ := updateActive_direct (processDis (processDirect w id) id node).world id
    obtain ⟨d1, d2⟩ := processCon_direct
      (updateActive (processDis (processDirect w id) id node).world id) id
      (processDis (processDirect w id) id node).node
    split
    · exact ⟨d1.trans (c1.trans (b1.trans a1)), d2.trans (c2.trans (b2.trans a2))⟩
    · obtain ⟨e1, e2⟩ := updateActive_direct (processCon
        (updateActive (processDis (processDirect w id) id node).world id) id
        (processDis (processDirect w id) id node).node).world id
      exact ⟨e1.trans (d1.trans (c1.trans (b1.trans a1))),
        e2.trans (d2.trans (c2.trans (b2.trans a2)))⟩

/-! ## Rounds of direct requests -/

/-- The plugs are only told where to be, and those sockets are held by no plug but these. -/
structure Told (w : World) (ids : List Nat) (T : Nat → Nat) : Prop where
  inv : Inv w
  dir : ∀ id ∈ ids, Directed (w.plug id) (some (some (T id)))
  idle : ∀ id ∈ ids, (w.plug id).con = (w.plug id).no ∧ (w.plug id).dis = (w.plug id).no
  own : ∀ id ∈ ids, ∀ q, w.sock (T id) = some q → q ∈ ids

theorem turn_direct (inner outer : Nat → Nat) (busy : Nat → Bool) (a : Option Nat) (node s : Nat) :
    (turn inner outer busy ⟨a, node⟩ none none (some (some s))).at?
      = if a = some s then some s else if busy s = true then none else some s := by
  by_cases h : a = some s
  · rw [if_pos h, h]
    simp [turn, asked, pull, put]
  · rw [if_neg h]
    have h' : ¬ some s = a := fun hh => h hh.symm
    by_cases hb : busy s = true
    · rw [if_pos hb]
      rcases a with _ | t
      · simp [turn, asked, pull, put, hb]
      · simp only [turn, asked, if_neg h', if_pos hb]
        simp [pull, put]
    · rw [if_neg hb]
      have hb' : busy s = false := by simpa using hb
      rcases a with _ | t
      · simp [turn, asked, pull, put, hb']
      · simp only [turn, asked, if_neg h', if_neg hb]
        simp [pull, put, hb']

theorem told_update {w : World} {ids : List Nat} {T : Nat → Nat} (h : Told w ids T)
    (hT : ∀ i ∈ ids, ∀ j ∈ ids, T i = T j → i = j) {id : Nat} (hid : id ∈ ids) (node : Nat) :
    Told (update w id node).world ids T
      ∧ (In (update w id node).world id (some (T id)) ∨ In (update w id node).world id none)
      ∧ ((∀ q ∈ ids, In w q (some (T q)) ∨ In w q none) →
          In (update w id node).world id (some (T id))) := by
  obtain ⟨a, ha⟩ := in_exists w id
  have hd : Means (w.plug id) (w.plug id).dis none := (h.idle id hid).2
  have hc : Means (w.plug id) (w.plug id).con none := (h.idle id hid).1
  obtain ⟨_, u2, u3, u4, u5, _, u7, u8⟩ := update_spec h.inv id node ha hd hc (h.dir id hid)
  obtain ⟨v, hv⟩ : ∃ v, v = (update w id node).world := ⟨_, rfl⟩
  have hdd := update_direct w id node (h.dir id hid).1
  rw [← hv] at u2 u3 u4 u5 u7 u8 hdd ⊢
  rw [turn_direct] at u5
  have hno : (v.plug id).no = (w.plug id).no := by unfold Plug.no; rw [u3.2.2.2.2.1 id]
  have hwhere : In v id (some (T id)) ∨ In v id none := by
    by_cases h1 : a = some (T id)
    · rw [if_pos h1] at u5; exact Or.inl u5
    · rw [if_neg h1] at u5
      by_cases h2 : busyFor w id (T id) = true
      · rw [if_pos h2] at u5; exact Or.inr u5
      · rw [if_neg h2] at u5; exact Or.inl u5
  refine ⟨⟨u2, fun q hq => ?_, fun q hq => ?_, fun q hq r hr => ?_⟩, hwhere, fun hall => ?_⟩
  · by_cases hqi : q = id
    · subst hqi
      obtain ⟨d1, d2, d3⟩ := h.dir q hq
      refine ⟨hdd.2.trans d1, ?_, ?_⟩
      · rw [hdd.1]; exact d2
      · rw [hdd.1, u3.2.2.2.2.1 q]; exact d3
    · rw [u3.2.2.2.2.2 q hqi]; exact h.dir q hq
  · by_cases hqi : q = id
    · subst hqi; rw [hno]; exact ⟨u8, u7⟩
    · rw [u3.2.2.2.2.2 q hqi]; exact h.idle q hq
  · by_cases hri : r = id
    · rw [hri]; exact hid
    · exact h.own q hq r ((u4 _ r hri).mp hr)
  · by_cases h1 : a = some (T id)
    · rw [if_pos h1] at u5; exact u5
    · rw [if_neg h1] at u5
      have h2 : busyFor w id (T id) = false := by
        unfold busyFor
        rcases hs : w.sock (T id) with _ | q
        · rfl
        · by_cases hq : q = id
          · simp [hq]
          · exfalso
            have hqm := h.own id hid q hs
            rcases hall q hqm with h3 | h3
            · have h4 : T q = T id := h.inv.excl _ _ q h3 hs
              exact hq (hT q hqm id hid h4)
            · exact h3 _ hs
      rw [h2, if_neg (by decide)] at u5
      exact u5

theorem in_same {w v : World} {id q : Nat} (h : Same w v id) (hq : q ≠ id) (o : Option Nat) :
    In v q o ↔ In w q o := by
  rcases o with _ | s
  · constructor
    · intro hv s hs; exact hv s ((h s q hq).mpr hs)
    · intro hw s hs; exact hw s ((h s q hq).mp hs)
  · exact h s q hq

theorem round_first {ids : List Nat} {T : Nat → Nat}
    (hT : ∀ i ∈ ids, ∀ j ∈ ids, T i = T j → i = j) (node : Nat → Nat) (l : List Nat)
    (hl : ∀ i ∈ l, i ∈ ids) {w : World} (h : Told w ids T) (done : Nat → Prop)
    (hdone : ∀ q, done q → In w q (some (T q)) ∨ In w q none) :
    Told (round node w l) ids T
      ∧ ∀ q, done q ∨ q ∈ l → In (round node w l) q (some (T q)) ∨ In (round node w l) q none := by
  induction l generalizing w done with
  | nil =>
    refine ⟨h, fun q hq => ?_⟩
    rcases hq with hq | hq
    · exact hdone q hq
    · cases hq
  | cons i l ih =>
    have hi : i ∈ ids := hl i (List.mem_cons_self)
    obtain ⟨t1, t2, _⟩ := told_update h hT hi (node i)
    have hs := (update_inv h.inv i (node i)).2.2
    have := ih (fun k hk => hl k (List.mem_cons_of_mem _ hk)) t1 (fun q => done q ∨ q = i) (by
      intro q hq
      by_cases hqi : q = i
      · rw [hqi]; exact t2
      · rcases hq with hq | hq
        · rw [in_same hs hqi, in_same hs hqi]; exact hdone q hq
        · exact absurd hq hqi)
    refine ⟨this.1, fun q hq => this.2 q ?_⟩
    rcases hq with hq | hq
    · exact Or.inl (Or.inl hq)
    · rcases List.mem_cons.mp hq with hq | hq
      · exact Or.inl (Or.inr hq)
      · exact Or.inr hq

theorem round_second {ids : List Nat} {T : Nat → Nat}
    (hT : ∀ i ∈ ids, ∀ j ∈ ids, T i = T j → i = j) (node : Nat → Nat) (l : List Nat)
    (hl : ∀ i ∈ l, i ∈ ids) {w : World} (h : Told w ids T)
    (hall : ∀ q ∈ ids, In w q (some (T q)) ∨ In w q none) (done : Nat → Prop)
    (hdone : ∀ q, done q → In w q (some (T q))) :
    ∀ q, done q ∨ q ∈ l → In (round node w l) q (some (T q)) := by
  induction l generalizing w done with
  | nil =>
    intro q hq
    rcases hq with hq | hq
    · exact hdone q hq
    · cases hq
  | cons i l ih =>
    have hi : i ∈ ids := hl i (List.mem_cons_self)
    obtain ⟨t1, t2, t3⟩ := told_update h hT hi (node i)
    have hs := (update_inv h.inv i (node i)).2.2
    have := ih (fun k hk => hl k (List.mem_cons_of_mem _ hk)) t1 (by
      intro q hq
      by_cases hqi : q = i
      · rw [hqi]; exact t2
      · rw [in_same hs hqi, in_same hs hqi]; exact hall q hq) (fun q => done q ∨ q = i) (by
      intro q hq
      by_cases hqi : q = i
      · rw [hqi]; exact t3 hall
      · rcases hq with hq | hq
        · rw [in_same hs hqi]; exact hdone q hq
        · exact absurd hq hqi)
    intro q hq
    refine this q ?_
    rcases hq with hq | hq
    · exact Or.inl (Or.inl hq)
    · rcases List.mem_cons.mp hq with hq | hq
      · exact Or.inl (Or.inr hq)
      · exact Or.inr hq

end Gunns.Plugs
