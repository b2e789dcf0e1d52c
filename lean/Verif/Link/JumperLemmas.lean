import Verif.Link.Jumper
import Mathlib.Tactic.Common

/-!
# Lemmas for sockets and plugs
-/

namespace Gunns.Jumper

/-- Plug `p`'s active connection tells which socket holds it: the first of its list, or none. -/
def Accurate (w : World) (p : Nat) : Prop :=
  ((w.plugs p).active = (w.plugs p).size ∧ ∀ s, (w.sockets s).conn ≠ some p) ∨
  ∃ i, i < (w.plugs p).size ∧ (w.plugs p).active = (i : Int) ∧ (w.sockets ((w.plugs p).list i)).conn = some p

/-- Sockets are consistent and no plug is in two of them. -/
structure Exclusive (w : World) : Prop where
  has : ∀ s, (w.sockets s).has = (w.sockets s).conn.isSome
  uniq : ∀ p s s', (w.sockets s).conn = some p → (w.sockets s').conn = some p → s = s'
  listed : ∀ p s, (w.sockets s).conn = some p → ∃ i, i < (w.plugs p).size ∧ (w.plugs p).list i = s

/-- What an operation of plug `p` leaves alone. -/
structure Frame (p : Nat) (w w' : World) : Prop where
  plugs : ∀ q, q ≠ p → w'.plugs q = w.plugs q
  size : (w'.plugs p).size = (w.plugs p).size
  list : (w'.plugs p).list = (w.plugs p).list
  held : ∀ s q, q ≠ p → ((w'.sockets s).conn = some q ↔ (w.sockets s).conn = some q)
  node0 : ∀ s, (w'.sockets s).node0 = (w.sockets s).node0
  node1 : ∀ s, (w'.sockets s).node1 = (w.sockets s).node1

theorem Frame.refl (p : Nat) (w : World) : Frame p w w :=
  ⟨fun _ _ => rfl, rfl, rfl, fun _ _ _ => Iff.rfl, fun _ => rfl, fun _ => rfl⟩

theorem Frame.trans {p : Nat} {w w' w'' : World} (h : Frame p w w') (h' : Frame p w' w'') : Frame p w w'' :=
  ⟨fun q hq => (h'.plugs q hq).trans (h.plugs q hq), h'.size.trans h.size, h'.list.trans h.list,
    fun s q hq => (h'.held s q hq).trans (h.held s q hq), fun s => (h'.node0 s).trans (h.node0 s),
    fun s => (h'.node1 s).trans (h.node1 s)⟩

@[simp] theorem setPlug_same (w : World) (p : Nat) (q : Plug) : (w.setPlug p q).plugs p = q := by
  simp [World.setPlug]

theorem setPlug_ne (w : World) {p k : Nat} (q : Plug) (h : k ≠ p) : (w.setPlug p q).plugs k = w.plugs k := by
  simp [World.setPlug, h]

@[simp] theorem setPlug_sockets (w : World) (p : Nat) (q : Plug) : (w.setPlug p q).sockets = w.sockets := rfl

@[simp] theorem setSocket_plugs (w : World) (i : Nat) (s : Socket) : (w.setSocket i s).plugs = w.plugs := rfl

@[simp] theorem setSocket_same (w : World) (i : Nat) (s : Socket) : (w.setSocket i s).sockets i = s := by
  simp [World.setSocket]

theorem setSocket_ne (w : World) {i k : Nat} (s : Socket) (h : k ≠ i) :
    (w.setSocket i s).sockets k = w.sockets k := by
  simp [World.setSocket, h]

/-- Changing a plug's variables other than its list. -/
theorem frame_setPlug {w : World} {p : Nat} {q : Plug} (h1 : q.size = (w.plugs p).size)
    (h2 : q.list = (w.plugs p).list) : Frame p w (w.setPlug p q) :=
  ⟨fun _ hk => setPlug_ne w q hk, by rw [setPlug_same, h1], by rw [setPlug_same, h2], fun _ _ _ => Iff.rfl,
    fun _ => rfl, fun _ => rfl⟩

theorem exclusive_setPlug {w : World} {p : Nat} {q : Plug} (h : Exclusive w) (h1 : q.size = (w.plugs p).size)
    (h2 : q.list = (w.plugs p).list) : Exclusive (w.setPlug p q) := by
  refine ⟨h.has, h.uniq, ?_⟩
  intro k s hk
  obtain ⟨i, hi, hl⟩ := h.listed k s hk
  by_cases hkp : k = p
  · subst hkp
    exact ⟨i, by rw [setPlug_same, h1]; exact hi, by rw [setPlug_same, h2]; exact hl⟩
  · exact ⟨i, by rw [setPlug_ne w q hkp]; exact hi, by rw [setPlug_ne w q hkp]; exact hl⟩

theorem accurate_setPlug {w : World} {p : Nat} {q : Plug} (h : Accurate w p) (h1 : q.size = (w.plugs p).size)
    (h2 : q.list = (w.plugs p).list) (h3 : q.active = (w.plugs p).active) : Accurate (w.setPlug p q) p := by
  unfold Accurate at *
  simp only [setPlug_same, setPlug_sockets, h1, h2, h3]
  exact h

/-- Others stay accurate. -/
theorem accurate_frame {w w' : World} {p k : Nat} (h : Frame p w w') (hk : k ≠ p) (ha : Accurate w k) :
    Accurate w' k := by
  unfold Accurate at *
  rw [h.plugs k hk]
  rcases ha with ⟨h1, h2⟩ | ⟨i, hi, h1, h2⟩
  · exact Or.inl ⟨h1, fun s c => h2 s ((h.held s k hk).mp c)⟩
  · exact Or.inr ⟨i, hi, h1, (h.held _ k hk).mpr h2⟩

theorem updateActive_spec {w : World} (h : Exclusive w) (p : Nat) :
    Accurate (updateActive w p) p ∧ Exclusive (updateActive w p) ∧ Frame p w (updateActive w p) ∧
    (updateActive w p).sockets = w.sockets ∧
    (updateActive w p).plugs p = { w.plugs p with active := ((updateActive w p).plugs p).active } := by
  refine ⟨?_, exclusive_setPlug h rfl rfl, frame_setPlug rfl rfl, rfl, by unfold updateActive; simp⟩
  unfold Accurate updateActive
  simp only [setPlug_same, setPlug_sockets]
  have key := loop_inv (f := fun i c => if c = ((w.plugs p).size : Int) ∧
        (w.sockets ((w.plugs p).list i)).holds p = true then (i : Int) else c)
    (s := ((w.plugs p).size : Int))
    (fun k c => k ≤ (w.plugs p).size →
      (c = (w.plugs p).size ∧ ∀ i, i < k → (w.sockets ((w.plugs p).list i)).conn ≠ some p) ∨
      ∃ i, i < k ∧ c = (i : Int) ∧ (w.sockets ((w.plugs p).list i)).conn = some p)
    (w.plugs p).size (fun _ => Or.inl ⟨rfl, fun i hi => by omega⟩) (by
    intro k hk c hc _
    rcases hc (by omega) with ⟨h1, h2⟩ | ⟨i, hi, h1, h2⟩
    · by_cases hh : (w.sockets ((w.plugs p).list k)).conn = some p
      · rw [if_pos ⟨h1, by simp [Socket.holds, hh]⟩]
        exact Or.inr ⟨k, by omega, rfl, hh⟩
      · rw [if_neg (fun c => hh (by simpa [Socket.holds] using c.2))]
        refine Or.inl ⟨h1, fun i hi => ?_⟩
        rcases Nat.lt_succ_iff_lt_or_eq.mp hi with h' | rfl
        · exact h2 i h'
        · exact hh
    · rw [if_neg (fun c => by omega)]
      exact Or.inr ⟨i, by omega, h1, h2⟩)
  rcases key (Nat.le_refl _) with ⟨h1, h2⟩ | ⟨i, hi, h1, h2⟩
  · refine Or.inl ⟨h1, fun s hs => ?_⟩
    obtain ⟨i, hi, hl⟩ := h.listed p s hs
    exact h2 i hi (by rw [hl]; exact hs)
  · exact Or.inr ⟨i, hi, h1, h2⟩

theorem processDirect_spec {w : World} (h : Exclusive w) (p : Nat) (ha : Accurate w p) :
    Accurate (processDirect w p) p ∧ Exclusive (processDirect w p) ∧ Frame p w (processDirect w p) ∧
    (processDirect w p).sockets = w.sockets := by
  have key : ∃ q, processDirect w p = w.setPlug p q ∧ q.size = (w.plugs p).size ∧ q.list = (w.plugs p).list ∧
      q.active = (w.plugs p).active := by
    unfold processDirect
    refine ⟨_, rfl, ?_, ?_, ?_⟩
    all_goals
      dsimp only
      repeat' split
      all_goals rfl
  obtain ⟨q, e, h1, h2, h3⟩ := key
  rw [e]
  exact ⟨accurate_setPlug ha h1 h2 h3, exclusive_setPlug h h1 h2, frame_setPlug h1 h2, rfl⟩

theorem setLast_facts (q : Plug) (i : Int) : (q.setLast i).size = q.size ∧ (q.setLast i).list = q.list ∧
    (q.setLast i).active = q.active ∧ (q.setLast i).node = q.node ∧ (q.setLast i).connReq = q.connReq ∧
    (q.setLast i).discReq = q.discReq := by
  unfold Plug.setLast
  split_ifs <;> exact ⟨rfl, rfl, rfl, rfl, rfl, rfl⟩

theorem getSocket_some {q : Plug} {i : Int} {s : Nat} (h : q.getSocket i = some s) :
    0 ≤ i ∧ i < q.size ∧ q.list i.toNat = s := by
  unfold Plug.getSocket at h
  split_ifs at h with c
  have : s = q.list i.toNat := (Option.some.inj h).symm
  exact ⟨by omega, by omega, this.symm⟩

/-- Whatever the disconnection request, afterwards the sockets are consistent and only the plug itself may
have left a socket. -/
theorem processDisconnection_spec {w : World} (h : Exclusive w) (p : Nat) :
    Exclusive (processDisconnection w p).world ∧ Frame p w (processDisconnection w p).world ∧
    (∀ s, ((processDisconnection w p).world.sockets s).conn = some p → (w.sockets s).conn = some p) ∧
    (∀ w', processDisconnection w p = .thrown w' → w' = w) ∧
    (((processDisconnection w p).world.plugs p).active = (w.plugs p).active) ∧
    (∀ s, (w.sockets s).conn = some p → ((processDisconnection w p).world.sockets s).conn ≠ some p →
      ((processDisconnection w p).world.plugs p).node = (w.sockets s).node1) := by
  unfold processDisconnection
  dsimp only
  split_ifs with c1 c2
  · exact ⟨exclusive_setPlug h rfl rfl, frame_setPlug rfl rfl, fun s hs => hs, fun _ c => (by cases c),
      by simp [Res.world], fun s hs hn => absurd hs hn⟩
  · cases hs : (w.plugs p).getSocket (w.plugs p).discReq with
    | none => exact ⟨h, Frame.refl p w, fun s hs => hs, fun _ c => (by cases c; rfl), rfl, fun s hs hn => absurd hs hn⟩
    | some s =>
      dsimp only [Res.world]
      obtain ⟨f1, f2, f3, f4, -⟩ := setLast_facts { w.plugs p with
        node := ((w.sockets s).requestDisconnection p).2 } (w.plugs p).discReq
      set r := ((w.sockets s).requestDisconnection p).1 with hr
      have hr' : r = if (w.sockets s).conn = some p then { w.sockets s with
          conn := none
          has := false } else w.sockets s := rfl
      have hcase : ((w.sockets s).conn = some p ∧ r.conn = none ∧ r.has = false) ∨
          ((w.sockets s).conn ≠ some p ∧ r = w.sockets s) := by
        by_cases hc : (w.sockets s).conn = some p
        · left; rw [hr', if_pos hc]; exact ⟨hc, rfl, rfl⟩
        · right; rw [hr', if_neg hc]; exact ⟨hc, rfl⟩
      have hsub : ∀ t k, ((w.setSocket s r).sockets t).conn = some k → (w.sockets t).conn = some k := by
        intro t k ht
        by_cases hts : t = s
        · subst hts
          rw [setSocket_same] at ht
          rcases hcase with ⟨-, h1, -⟩ | ⟨-, h1⟩
          · rw [h1] at ht; cases ht
          · rwa [h1] at ht
        · rwa [setSocket_ne _ _ hts] at ht
      have hnode : r.node0 = (w.sockets s).node0 ∧ r.node1 = (w.sockets s).node1 := by
        rw [hr']; split_ifs <;> exact ⟨rfl, rfl⟩
      have hex : Exclusive (w.setSocket s r) := by
        refine ⟨?_, ?_, ?_⟩
        · intro t
          by_cases hts : t = s
          · subst hts
            rw [setSocket_same]
            rcases hcase with ⟨-, h1, h2⟩ | ⟨-, h1⟩
            · rw [h1, h2]; rfl
            · rw [h1]; exact h.has t
          · rw [setSocket_ne _ _ hts]; exact h.has t
        · intro k t t' ht ht'
          exact h.uniq k t t' (hsub t k ht) (hsub t' k ht')
        · intro k t ht
          exact h.listed k t (hsub t k ht)
      refine ⟨exclusive_setPlug hex f1 f2, ?_, ?_, fun _ c => (by cases c), ?_, ?_⟩
      · refine Frame.trans (w' := w.setSocket s r) ⟨fun _ _ => rfl, rfl, rfl, ?_, ?_, ?_⟩
          (frame_setPlug f1 f2)
        · intro t q hq
          refine ⟨hsub t q, fun ht => ?_⟩
          by_cases hts : t = s
          · subst hts
            rw [setSocket_same]
            rcases hcase with ⟨h0, h1, h2⟩ | ⟨-, h1⟩
            · rw [h0] at ht; exact absurd (Option.some.inj ht).symm hq
            · rw [h1]; exact ht
          · rw [setSocket_ne _ _ hts]; exact ht
        · intro t
          by_cases hts : t = s
          · subst hts; rw [setSocket_same]; exact hnode.1
          · rw [setSocket_ne _ _ hts]
        · intro t
          by_cases hts : t = s
          · subst hts; rw [setSocket_same]; exact hnode.2
          · rw [setSocket_ne _ _ hts]
      · intro t ht
        exact hsub t p ht
      · rw [setPlug_same]; exact f3
      · intro t ht hn
        rw [setPlug_same]
        refine f4.trans ?_
        have hts : t = s := by
          by_contra hts
          rw [setPlug_sockets, setSocket_ne _ _ hts] at hn
          exact hn ht
        rw [hts]; rfl
  · exact ⟨exclusive_setPlug h rfl rfl, frame_setPlug rfl rfl, fun s hs => hs, fun _ c => (by cases c),
      by simp [Res.world], fun s hs hn => absurd hs hn⟩

/-- A connection is made only by a plug that is in no socket and only to an empty socket of its list. -/
theorem processConnection_spec {w : World} (h : Exclusive w) (p : Nat) (ha : Accurate w p) :
    Exclusive (processConnection w p).world ∧ Frame p w (processConnection w p).world ∧
    (∀ w', processConnection w p = .thrown w' → w' = w) ∧
    (∀ s, ((processConnection w p).world.sockets s).conn = some p → (w.sockets s).conn ≠ some p →
      (w.sockets s).conn = none ∧ ((processConnection w p).world.plugs p).node = (w.sockets s).node0) ∧
    (∀ s, (w.sockets s).conn = some p → ((processConnection w p).world.sockets s).conn = some p) ∧
    ((∀ s, ((processConnection w p).world.sockets s).conn = (w.sockets s).conn) →
      ((processConnection w p).world.plugs p).node = (w.plugs p).node) := by
  unfold processConnection
  dsimp only
  split_ifs with c1 c2
  · refine ⟨exclusive_setPlug h rfl rfl, frame_setPlug rfl rfl, fun _ c => (by cases c),
      fun s hs hn => absurd hs hn, fun s hs => hs, fun _ => by simp [Res.world]⟩
  · cases hs : (w.plugs p).getSocket (w.plugs p).connReq with
    | none =>
      exact ⟨h, Frame.refl p w, fun _ c => (by cases c; rfl), fun s hs hn => absurd hs hn, fun s hs => hs,
        fun _ => rfl⟩
    | some s =>
      dsimp only
      cases hc : (w.sockets s).requestConnection p with
      | none =>
        exact ⟨exclusive_setPlug h rfl rfl, frame_setPlug rfl rfl, fun _ c => (by cases c),
          fun s hs hn => absurd hs hn, fun s hs => hs, fun _ => by simp [Res.world]⟩
      | some r =>
        obtain ⟨s', node⟩ := r
        dsimp only [Res.world]
        unfold Socket.requestConnection at hc
        cases hcon : (w.sockets s).conn with
        | some k => rw [hcon] at hc; cases hc
        | none =>
          rw [hcon] at hc
          obtain ⟨rfl, rfl⟩ := Prod.mk.inj (Option.some.inj hc)
          clear hc
          obtain ⟨g1, g2, g3⟩ := getSocket_some hs
          have hfree : ∀ t, (w.sockets t).conn ≠ some p := by
            rcases ha with ⟨-, h2⟩ | ⟨i, hi, h1, -⟩
            · exact h2
            · have e : ((w.plugs p).size : Int) = (w.plugs p).active := not_not.mp c2
              omega
          set r : Socket := { w.sockets s with
            conn := some p
            has := true } with hr
          obtain ⟨f1, f2, f3, f4, -⟩ := setLast_facts { w.plugs p with node := (w.sockets s).node0 } (w.plugs p).size
          have hsock : ∀ t, ((w.setSocket s r).sockets t).conn = if t = s then some p else (w.sockets t).conn := by
            intro t
            by_cases hts : t = s
            · subst hts; rw [setSocket_same, if_pos rfl]
            · rw [setSocket_ne _ _ hts, if_neg hts]
          have hex : Exclusive (w.setSocket s r) := by
            refine ⟨?_, ?_, ?_⟩
            · intro t
              by_cases hts : t = s
              · subst hts; rw [setSocket_same]; rfl
              · rw [setSocket_ne _ _ hts]; exact h.has t
            · intro k t t' ht ht'
              rw [hsock] at ht ht'
              by_cases e1 : t = s <;> by_cases e2 : t' = s
              · rw [e1, e2]
              · rw [if_pos e1] at ht; rw [if_neg e2] at ht'
                rw [← Option.some.inj ht] at ht'
                exact absurd ht' (hfree t')
              · rw [if_neg e1] at ht; rw [if_pos e2] at ht'
                rw [← Option.some.inj ht'] at ht
                exact absurd ht (hfree t)
              · rw [if_neg e1] at ht; rw [if_neg e2] at ht'
                exact h.uniq k t t' ht ht'
            · intro k t ht
              rw [hsock] at ht
              by_cases e1 : t = s
              · rw [if_pos e1] at ht
                rw [← Option.some.inj ht, e1]
                exact ⟨(w.plugs p).connReq.toNat, by show _ < (w.plugs p).size; omega, g3⟩
              · rw [if_neg e1] at ht
                exact h.listed k t ht
          refine ⟨exclusive_setPlug hex f1 f2, ?_, fun _ c => (by cases c), ?_, ?_, ?_⟩
          · refine Frame.trans (w' := w.setSocket s r) ⟨fun _ _ => rfl, rfl, rfl, ?_, ?_, ?_⟩
              (frame_setPlug f1 f2)
            · intro t q hq
              rw [hsock]
              by_cases hts : t = s
              · rw [if_pos hts, hts, hcon]
                exact ⟨fun c => absurd (Option.some.inj c).symm hq, fun c => (by cases c)⟩
              · rw [if_neg hts]
            · intro t
              by_cases hts : t = s
              · subst hts; rw [setSocket_same]
              · rw [setSocket_ne _ _ hts]
            · intro t
              by_cases hts : t = s
              · subst hts; rw [setSocket_same]
              · rw [setSocket_ne _ _ hts]
          · intro t ht hn
            rw [setPlug_sockets, hsock] at ht
            by_cases hts : t = s
            · subst hts
              refine ⟨hcon, ?_⟩
              rw [setPlug_same]
              exact f4
            · rw [if_neg hts] at ht; exact absurd ht hn
          · intro t ht
            exact absurd ht (hfree t)
          · intro hsame
            have := hsame s
            rw [setPlug_sockets, hsock, if_pos rfl, hcon] at this
            cases this
  · exact ⟨exclusive_setPlug h rfl rfl, frame_setPlug rfl rfl, fun _ c => (by cases c),
      fun s hs hn => absurd hs hn, fun s hs => hs, fun _ => by simp [Res.world]⟩

/-- An update keeps the sockets consistent and the plug accurate, also when it throws. -/
theorem update_spec {w : World} (h : Exclusive w) (p : Nat) (ha : Accurate w p) (node : Int) :
    Exclusive (update w p node).world ∧ Accurate (update w p node).world p ∧
    Frame p w (update w p node).world := by
  unfold update
  dsimp only
  set w1 := w.setPlug p { w.plugs p with node := node } with hw1
  have e1 : Exclusive w1 := exclusive_setPlug h rfl rfl
  have a1 : Accurate w1 p := accurate_setPlug ha rfl rfl rfl
  have f1 : Frame p w w1 := frame_setPlug rfl rfl
  obtain ⟨a2, e2, f2, -⟩ := processDirect_spec e1 p a1
  set w2 := processDirect w1 p
  obtain ⟨e3, f3, -, t3, -, -⟩ := processDisconnection_spec e2 p
  cases hd : processDisconnection w2 p with
  | thrown w3 =>
    have := t3 w3 hd
    subst this
    exact ⟨e2, a2, f1.trans f2⟩
  | ok w3 =>
    rw [hd] at e3 f3
    dsimp only [Res.world] at e3 f3
    dsimp only [Res.andThen]
    obtain ⟨a4, e4, f4, -⟩ := updateActive_spec e3 p
    set w4 := updateActive w3 p
    obtain ⟨e5, f5, t5, -⟩ := processConnection_spec e4 p a4
    cases hc : processConnection w4 p with
    | thrown w5 =>
      have := t5 w5 hc
      subst this
      exact ⟨e4, a4, ((f1.trans f2).trans f3).trans f4⟩
    | ok w5 =>
      rw [hc] at e5 f5
      dsimp only [Res.world] at e5 f5
      dsimp only [Res.world]
      obtain ⟨a6, e6, f6, -⟩ := updateActive_spec e5 p
      exact ⟨e6, a6, ((((f1.trans f2).trans f3).trans f4).trans f5).trans f6⟩

/-- Where an update that ends normally puts the plug. -/
theorem update_node {w w' : World} (h : Exclusive w) (p : Nat) (ha : Accurate w p) (node : Int)
    (hu : update w p node = .ok w') :
    (∀ s, (w'.sockets s).conn = some p → (w.sockets s).conn ≠ some p →
      (w'.plugs p).node = (w.sockets s).node0 ∧ (w.sockets s).conn = none) ∧
    (∀ s, (w.sockets s).conn = some p → (∀ t, (w'.sockets t).conn ≠ some p) →
      (w'.plugs p).node = (w.sockets s).node1) := by
  unfold update at hu
  dsimp only at hu
  set w1 := w.setPlug p { w.plugs p with node := node } with hw1
  have e1 : Exclusive w1 := exclusive_setPlug h rfl rfl
  have a1 : Accurate w1 p := accurate_setPlug ha rfl rfl rfl
  obtain ⟨a2, e2, f2, k2⟩ := processDirect_spec e1 p a1
  set w2 := processDirect w1 p
  obtain ⟨e3, f3, s3, t3, -, n3⟩ := processDisconnection_spec e2 p
  have hw2 : ∀ s, w2.sockets s = w.sockets s := fun s => by rw [k2]; rfl
  cases hd : processDisconnection w2 p with
  | thrown w3 => rw [hd] at hu; cases hu
  | ok w3 =>
    rw [hd] at e3 f3 s3 n3 hu
    dsimp only [Res.world, Res.andThen] at e3 f3 s3 n3 hu
    obtain ⟨a4, e4, f4, k4, p4⟩ := updateActive_spec e3 p
    set w4 := updateActive w3 p
    obtain ⟨e5, f5, t5, c5, d5, n5⟩ := processConnection_spec e4 p a4
    cases hc : processConnection w4 p with
    | thrown w5 => rw [hc] at hu; cases hu
    | ok w5 =>
      rw [hc] at e5 f5 c5 d5 n5 hu
      dsimp only [Res.world, Res.andThen] at e5 f5 c5 d5 n5 hu
      obtain ⟨a6, e6, f6, k6, p6⟩ := updateActive_spec e5 p
      have hw' : w' = updateActive w5 p := by cases hu; rfl
      rw [hw']
      have hnode6 : ((updateActive w5 p).plugs p).node = (w5.plugs p).node := by rw [p6]
      have hnode4 : (w4.plugs p).node = (w3.plugs p).node := by rw [p4]
      refine ⟨?_, ?_⟩
      · intro s hs hn
        rw [k6] at hs
        have h4 : (w4.sockets s).conn ≠ some p := by
          rw [k4]; intro c
          have := s3 s c
          rw [hw2] at this
          exact hn this
        obtain ⟨g1, g2⟩ := c5 s hs h4
        have hnn : (w4.sockets s).node0 = (w.sockets s).node0 := by
          rw [k4, f3.node0 s, hw2]
        refine ⟨by rw [hnode6, g2, hnn], ?_⟩
        cases hcon : (w.sockets s).conn with
        | none => rfl
        | some q =>
          have hq : q ≠ p := fun c => hn (by rw [hcon, c])
          have : (w3.sockets s).conn = some q := (f3.held s q hq).mpr (by rw [hw2]; exact hcon)
          rw [k4, this] at g1
          cases g1
      · intro s hs hnone
        rw [k6] at hnone
        have h3 : ∀ t, (w3.sockets t).conn ≠ some p := by
          intro t c
          exact hnone t (d5 t (by rw [k4]; exact c))
        have g1 := n3 s (by rw [hw2]; exact hs) (h3 s)
        have hsame : ∀ t, (w5.sockets t).conn = (w4.sockets t).conn := by
          intro t
          cases hc5 : (w5.sockets t).conn with
          | some q =>
            have hq : q ≠ p := fun c => hnone t (by rw [hc5, c])
            exact ((f5.held t q hq).mp hc5).symm
          | none =>
            cases hc4 : (w4.sockets t).conn with
            | none => rfl
            | some q =>
              have hq : q ≠ p := fun c => h3 t (by rw [← k4, hc4, c])
              rw [(f5.held t q hq).mpr hc4] at hc5
              cases hc5
        rw [hnode6, n5 hsame, hnode4, g1, hw2]

theorem initPlug_spec {w : World} (h : Exclusive w) (p : Nat) (ha : Accurate w p) (node sock : Int) :
    Exclusive (initPlug w p node sock).world ∧ Accurate (initPlug w p node sock).world p ∧
    Frame p w (initPlug w p node sock).world := by
  unfold initPlug
  dsimp only
  set w1 := w.setPlug p { w.plugs p with
    direct := -99
    disable := false } with hw1
  have e1 : Exclusive w1 := exclusive_setPlug h rfl rfl
  have a1 : Accurate w1 p := accurate_setPlug ha rfl rfl rfl
  have f1 : Frame p w w1 := frame_setPlug rfl rfl
  split_ifs with c
  · exact ⟨e1, a1, f1⟩
  · set w2 := w1.setPlug p { w1.plugs p with
      node := node
      connReq := sock } with hw2
    have e2 : Exclusive w2 := exclusive_setPlug e1 rfl rfl
    have a2 : Accurate w2 p := accurate_setPlug a1 rfl rfl rfl
    have f2 : Frame p w1 w2 := frame_setPlug rfl rfl
    obtain ⟨e5, f5, t5, -⟩ := processConnection_spec e2 p a2
    cases hc : processConnection w2 p with
    | thrown w5 =>
      have := t5 w5 hc
      subst this
      exact ⟨e2, a2, f1.trans f2⟩
    | ok w5 =>
      rw [hc] at e5 f5
      dsimp only [Res.world] at e5 f5
      dsimp only [Res.andThen]
      obtain ⟨a6, e6, f6, -⟩ := updateActive_spec e5 p
      split_ifs
      · exact ⟨e6, a6, ((f1.trans f2).trans f5).trans f6⟩
      · exact ⟨e6, a6, ((f1.trans f2).trans f5).trans f6⟩

theorem disc_keep {w : World} {p : Nat} (hx : (w.plugs p).discReq = (w.plugs p).size) :
    ∃ w', processDisconnection w p = .ok w' ∧ w'.sockets = w.sockets ∧
      (w'.plugs p).connReq = (w.plugs p).connReq ∧ (w'.plugs p).size = (w.plugs p).size ∧
      (w'.plugs p).list = (w.plugs p).list := by
  unfold processDisconnection
  dsimp only
  rw [if_neg (not_not.mpr hx.symm)]
  exact ⟨_, rfl, rfl, by simp, by simp, by simp⟩

theorem disc_release {w : World} {p : Nat} (h : Exclusive w) (ha : Accurate w p)
    (hx : (w.plugs p).discReq = (w.plugs p).active) :
    ∃ w', processDisconnection w p = .ok w' ∧
      (∀ s, (w'.sockets s).conn = if (w.sockets s).conn = some p then none else (w.sockets s).conn) ∧
      (w'.plugs p).connReq = (w.plugs p).connReq ∧ (w'.plugs p).size = (w.plugs p).size ∧
      (w'.plugs p).list = (w.plugs p).list := by
  rcases ha with ⟨h1, h2⟩ | ⟨i, hi, h1, h2⟩
  · obtain ⟨w', e, k1, k2⟩ := disc_keep (w := w) (p := p) (hx.trans h1)
    exact ⟨w', e, fun s => by rw [k1, if_neg (h2 s)], k2⟩
  · unfold processDisconnection
    dsimp only
    rw [if_pos (by rw [hx, h1]; omega), if_neg (fun c => c.1 hx.symm)]
    have hs : (w.plugs p).getSocket (w.plugs p).discReq = some ((w.plugs p).list i) := by
      unfold Plug.getSocket
      rw [hx, h1, if_neg (by omega)]
      rfl
    rw [hs]
    obtain ⟨f1, f2, -, -, f5, -⟩ := setLast_facts { w.plugs p with
        node := ((w.sockets ((w.plugs p).list i)).requestDisconnection p).2 } (w.plugs p).discReq
    refine ⟨_, rfl, ?_, ?_, ?_, ?_⟩
    · intro s
      rw [setPlug_sockets]
      by_cases hsi : s = (w.plugs p).list i
      · subst hsi
        rw [setSocket_same, if_pos h2]
        unfold Socket.requestDisconnection
        rw [if_pos h2]
      · rw [setSocket_ne _ _ hsi, if_neg (fun c => hsi (h.uniq p _ _ c h2))]
    · rw [setPlug_same]; exact f5
    · rw [setPlug_same]; exact f1
    · rw [setPlug_same]; exact f2

theorem conn_keep {w : World} {p : Nat} (hx : (w.plugs p).connReq = (w.plugs p).size) :
    ∃ w', processConnection w p = .ok w' ∧ w'.sockets = w.sockets := by
  unfold processConnection
  dsimp only
  rw [if_neg (not_not.mpr hx.symm)]
  exact ⟨_, rfl, rfl⟩

theorem conn_take {w : World} {p i : Nat} (hi : i < (w.plugs p).size) (hx : (w.plugs p).connReq = (i : Int))
    (ha : (w.plugs p).active = (w.plugs p).size) (he : (w.sockets ((w.plugs p).list i)).conn = none) :
    ∃ w', processConnection w p = .ok w' ∧
      ∀ s, (w'.sockets s).conn = if s = (w.plugs p).list i then some p else (w.sockets s).conn := by
  unfold processConnection
  dsimp only
  rw [if_pos (by rw [hx]; omega), if_neg (not_not.mpr ha.symm)]
  have hs : (w.plugs p).getSocket (w.plugs p).connReq = some ((w.plugs p).list i) := by
    unfold Plug.getSocket
    rw [hx, if_neg (by omega)]
    rfl
  rw [hs]
  dsimp only
  have hr : (w.sockets ((w.plugs p).list i)).requestConnection p = some ({ w.sockets ((w.plugs p).list i) with
      conn := some p
      has := true }, (w.sockets ((w.plugs p).list i)).node0) := by
    unfold Socket.requestConnection
    rw [he]
  rw [hr]
  refine ⟨_, rfl, ?_⟩
  intro s
  rw [setPlug_sockets]
  by_cases hsi : s = (w.plugs p).list i
  · subst hsi; rw [setSocket_same, if_pos rfl]
  · rw [setSocket_ne _ _ hsi, if_neg hsi]

theorem update_of {w w3 w5 : World} {p : Nat} {node : Int}
    (h3 : processDisconnection (processDirect (w.setPlug p { w.plugs p with node := node }) p) p = .ok w3)
    (h5 : processConnection (updateActive w3 p) p = .ok w5) :
    update w p node = .ok (updateActive w5 p) ∧ (updateActive w5 p).sockets = w5.sockets := by
  unfold update
  dsimp only
  rw [h3]
  dsimp only [Res.andThen]
  rw [h5]
  exact ⟨rfl, rfl⟩

/-- The plug after its direct request was looked at. -/
theorem direct_plug {w : World} (h : Exclusive w) {p : Nat} {node : Int} (hd : (w.plugs p).disable = false) :
    ∃ q, processDirect (w.setPlug p { w.plugs p with node := node }) p = w.setPlug p q ∧
      q.size = (w.plugs p).size ∧ q.list = (w.plugs p).list ∧ q.active = (w.plugs p).active ∧
      ((w.plugs p).direct = (w.plugs p).active → q.discReq = (w.plugs p).discReq ∧ q.connReq = (w.plugs p).connReq) ∧
      (0 ≤ (w.plugs p).direct → (w.plugs p).direct ≤ (w.plugs p).size → (w.plugs p).direct ≠ (w.plugs p).active →
        q.discReq = (w.plugs p).active ∧
        ((w.plugs p).direct = (w.plugs p).size → q.connReq = (w.plugs p).connReq) ∧
        ∀ i, i < (w.plugs p).size → (w.plugs p).direct = (i : Int) →
          q.connReq = if (w.sockets ((w.plugs p).list i)).conn = none then (i : Int) else (w.plugs p).connReq) := by
  have hset : ∀ q q', (w.setPlug p q).setPlug p q' = w.setPlug p q' := by
    intro q q'
    unfold World.setPlug
    dsimp only
    congr 1
    funext k
    split_ifs <;> rfl
  unfold processDirect
  dsimp only
  rw [hset]
  refine ⟨_, rfl, ?_⟩
  simp only [setPlug_same, hd, setPlug_sockets, Bool.false_eq_true, if_false]
  by_cases hda : (w.plugs p).direct = (w.plugs p).active
  · rw [if_neg (fun c => c.2.2 hda)]
    exact ⟨rfl, rfl, rfl, fun _ => ⟨rfl, rfl⟩, fun _ _ c => absurd hda c⟩
  · by_cases hr : 0 ≤ (w.plugs p).direct ∧ (w.plugs p).direct ≤ (w.plugs p).size
    · rw [if_pos ⟨hr.1, hr.2, hda⟩]
      by_cases hsz : (w.plugs p).direct = (w.plugs p).size
      · rw [if_neg (not_not.mpr hsz)]
        exact ⟨rfl, rfl, rfl, fun c => absurd c hda, fun _ _ _ => ⟨rfl, fun _ => rfl, fun i hi c => by omega⟩⟩
      · rw [if_pos hsz]
        have hs : (Plug.getSocket { w.plugs p with
            node := node
            disable := false
            discReq := (w.plugs p).active } (w.plugs p).direct) = some ((w.plugs p).list (w.plugs p).direct.toNat) := by
          unfold Plug.getSocket
          dsimp only
          rw [if_neg (by omega)]
        rw [hs]
        dsimp only
        have hhas := h.has ((w.plugs p).list (w.plugs p).direct.toNat)
        cases hcon : (w.sockets ((w.plugs p).list (w.plugs p).direct.toNat)).conn with
        | none =>
          rw [hcon] at hhas
          rw [hhas]
          refine ⟨rfl, rfl, rfl, fun c => absurd c hda, fun _ _ _ => ⟨rfl, fun c => absurd c hsz, ?_⟩⟩
          intro i hi hdi
          rw [hdi, Int.toNat_natCast] at hcon
          rw [if_pos hcon]
          exact hdi
        | some k =>
          rw [hcon] at hhas
          rw [hhas]
          refine ⟨rfl, rfl, rfl, fun c => absurd c hda, fun _ _ _ => ⟨rfl, fun c => absurd c hsz, ?_⟩⟩
          intro i hi hdi
          rw [hdi, Int.toNat_natCast] at hcon
          have hne : ¬ (w.sockets ((w.plugs p).list i)).conn = none := by rw [hcon]; exact Option.some_ne_none k
          exact (if_neg hne).symm
    · rw [if_neg (fun c => hr ⟨c.1, c.2.1⟩)]
      exact ⟨rfl, rfl, rfl, fun c => absurd c hda, fun c1 c2 _ => absurd ⟨c1, c2⟩ hr⟩

end Gunns.Jumper
