import Verif.Link.JumperLemmas

/-!
# Jumper plugs and sockets (C29)
-/

namespace Gunns.Props
open Gunns.Jumper

/-- Nothing is plugged in. -/
def Unplugged (w : World) : Prop :=
  (∀ s, (w.sockets s).conn = none ∧ (w.sockets s).has = false) ∧ ∀ p, (w.plugs p).active = (w.plugs p).size

/-- The plug an operation belongs to. -/
def opPlug : Op → Option Nat
  | .connect p _ | .disconnect p _ | .direct p _ | .disable p _ | .update p _ | .init p _ _ | .restart p _ => some p
  | .move _ _ _ => none

/-- What users rely on: the occupied flag of a socket is right; a plug is in at most one socket, and that one
is on its list; the active connection of a plug is the number of the socket holding it on the plug's list, or
"no connection" exactly if no socket holds it. -/
def Agreement (w : World) : Prop :=
  (∀ s, (w.sockets s).has = true ↔ ∃ p, (w.sockets s).conn = some p) ∧
  (∀ p s t, (w.sockets s).conn = some p → (w.sockets t).conn = some p → s = t) ∧
  (∀ p, (∃ i, i < (w.plugs p).size ∧ (w.plugs p).active = (i : Int) ∧
      (w.sockets ((w.plugs p).list i)).conn = some p) ∨
    ((w.plugs p).active = (w.plugs p).size ∧ ∀ s, (w.sockets s).conn ≠ some p))

theorem agreement_iff (w : World) : Agreement w ↔ Exclusive w ∧ ∀ p, Accurate w p := by
  constructor
  · rintro ⟨h1, h2, h3⟩
    refine ⟨⟨?_, h2, ?_⟩, fun p => (h3 p).symm⟩
    · intro s
      rw [Bool.eq_iff_iff, h1 s, Option.isSome_iff_exists]
    · intro p s hs
      rcases h3 p with ⟨i, hi, -, hc⟩ | ⟨-, hn⟩
      · exact ⟨i, hi, h2 p _ _ hc hs⟩
      · exact absurd hs (hn s)
  · rintro ⟨h, ha⟩
    refine ⟨?_, h.uniq, fun p => (ha p).symm⟩
    intro s
    rw [h.has s, Option.isSome_iff_exists]

theorem op_spec {w : World} (h : Exclusive w) (ha : ∀ p, Accurate w p) (o : Op) :
    Exclusive (o.run w) ∧ (∀ p, Accurate (o.run w) p) ∧
    ∀ p s, opPlug o ≠ some p → (((o.run w).sockets s).conn = some p ↔ (w.sockets s).conn = some p) := by
  have fin : ∀ p w', Exclusive w' → Accurate w' p → Frame p w w' →
      Exclusive w' ∧ (∀ k, Accurate w' k) ∧
      ∀ k s, some p ≠ some k → ((w'.sockets s).conn = some k ↔ (w.sockets s).conn = some k) := by
    intro p w' h1 h2 h3
    refine ⟨h1, fun k => ?_, fun k s hk => h3.held s k (fun c => hk (by rw [c]))⟩
    by_cases hk : k = p
    · subst hk; exact h2
    · exact accurate_frame h3 hk (ha k)
  cases o with
  | connect p i => exact fin p _ (exclusive_setPlug h rfl rfl) (accurate_setPlug (ha p) rfl rfl rfl) (frame_setPlug rfl rfl)
  | disconnect p i => exact fin p _ (exclusive_setPlug h rfl rfl) (accurate_setPlug (ha p) rfl rfl rfl) (frame_setPlug rfl rfl)
  | direct p i => exact fin p _ (exclusive_setPlug h rfl rfl) (accurate_setPlug (ha p) rfl rfl rfl) (frame_setPlug rfl rfl)
  | disable p b => exact fin p _ (exclusive_setPlug h rfl rfl) (accurate_setPlug (ha p) rfl rfl rfl) (frame_setPlug rfl rfl)
  | update p node =>
    obtain ⟨h1, h2, h3⟩ := update_spec h p (ha p) node
    exact fin p _ h1 h2 h3
  | init p node sock =>
    obtain ⟨h1, h2, h3⟩ := initPlug_spec h p (ha p) node sock
    exact fin p _ h1 h2 h3
  | restart p node =>
    have key : ∃ q, restartRequests w p = w.setPlug p q ∧ q.size = (w.plugs p).size ∧
        q.list = (w.plugs p).list ∧ q.active = (w.plugs p).active := by
      unfold restartRequests
      refine ⟨_, rfl, ?_, ?_, ?_⟩
      all_goals
        split_ifs
        all_goals rfl
    obtain ⟨q, e, q1, q2, q3⟩ := key
    obtain ⟨h1, h2, h3⟩ := update_spec (w := restartRequests w p) (by rw [e]; exact exclusive_setPlug h q1 q2) p
      (by rw [e]; exact accurate_setPlug (ha p) q1 q2 q3) node
    exact fin p _ h1 h2 (Frame.trans (by rw [e]; exact frame_setPlug q1 q2) h3)
  | move s n0 n1 =>
    have hc : ∀ t, ((Op.run w (.move s n0 n1)).sockets t).conn = (w.sockets t).conn ∧
        ((Op.run w (.move s n0 n1)).sockets t).has = (w.sockets t).has := by
      intro t
      by_cases hts : t = s
      · subst hts; simp [Op.run]
      · simp [Op.run, setSocket_ne _ _ hts]
    have hp : (Op.run w (.move s n0 n1)).plugs = w.plugs := rfl
    refine ⟨⟨?_, ?_, ?_⟩, ?_, ?_⟩
    · intro t; rw [(hc t).1, (hc t).2]; exact h.has t
    · intro p t t'; rw [(hc t).1, (hc t').1]; exact h.uniq p t t'
    · intro p t; rw [(hc t).1, hp]; exact h.listed p t
    · intro p
      have := ha p
      unfold Accurate at *
      rw [hp]
      rcases this with ⟨g1, g2⟩ | ⟨i, hi, g1, g2⟩
      · exact Or.inl ⟨g1, fun t => by rw [(hc t).1]; exact g2 t⟩
      · exact Or.inr ⟨i, hi, g1, by rw [(hc _).1]; exact g2⟩
    · intro p t _; rw [(hc t).1]

/-- **C29.** Starting with nothing plugged in, after any history of requests, updates, initialisations,
restarts and moved sockets (exceptions included) plugs and sockets agree: a plug is in at most one socket and
its active connection tells which. -/
theorem c29_history {w : World} (h : Unplugged w) (ops : List Op) : Agreement (ops.foldl Op.run w) := by
  have h0 : Exclusive w ∧ ∀ p, Accurate w p := by
    refine ⟨⟨fun s => by rw [(h.1 s).1, (h.1 s).2]; rfl, ?_, ?_⟩, ?_⟩
    · intro p s t hs; rw [(h.1 s).1] at hs; cases hs
    · intro p s hs; rw [(h.1 s).1] at hs; cases hs
    · intro p
      exact Or.inl ⟨h.2 p, fun s c => by rw [(h.1 s).1] at c; cases c⟩
  rw [agreement_iff]
  clear h
  induction ops generalizing w with
  | nil => exact h0
  | cons o ops ih =>
    obtain ⟨h1, h2, -⟩ := op_spec h0.1 h0.2 o
    exact ih ⟨h1, h2⟩

/-- **C29.** No operation that is not the plug's own takes it out of its socket or puts it into one. -/
theorem c29_no_displacement {w : World} (h : Agreement w) (o : Op) {p : Nat} (hp : opPlug o ≠ some p) (s : Nat) :
    ((o.run w).sockets s).conn = some p ↔ (w.sockets s).conn = some p := by
  rw [agreement_iff] at h
  exact (op_spec h.1 h.2 o).2.2 p s hp

/-- **C29.** When an update of a jumper port ends normally and the node map is not locked: a plug newly in a
socket puts the port on the socket's first node, provided that is a node of the network; the socket was empty
before; and a plug now in no socket puts the port on the ambient (second) node of the socket it left. -/
theorem c29_port_follows {w w' : World} (h : Agreement w) (p : Nat) (j : JumperPort) (nodes : Int)
    (hu : (updatePort w p j nodes).1 = .ok w') (hl : j.locked = false) :
    (∀ s, (w'.sockets s).conn = some p → (w.sockets s).conn ≠ some p →
      (w.sockets s).conn = none ∧
      (0 ≤ (w.sockets s).node0 → (w.sockets s).node0 < nodes →
        (updatePort w p j nodes).2.node = (w.sockets s).node0)) ∧
    (∀ s, (w.sockets s).conn = some p → (∀ t, (w'.sockets t).conn ≠ some p) →
      0 ≤ (w.sockets s).node1 → (w.sockets s).node1 < nodes →
        (updatePort w p j nodes).2.node = (w.sockets s).node1) := by
  rw [agreement_iff] at h
  unfold updatePort at hu ⊢
  cases hup : update w p j.node with
  | thrown v => rw [hup] at hu; cases hu
  | ok v =>
    rw [hup] at hu
    have hv : v = w' := by cases hu; rfl
    subst hv
    obtain ⟨n1, n2⟩ := update_node h.1 p (h.2 p) j.node hup
    have place : ∀ n : Int, (v.plugs p).node = n → 0 ≤ n → n < nodes →
        (if (v.plugs p).node ≠ j.node ∧ j.locked = false ∧ 0 ≤ (v.plugs p).node ∧ (v.plugs p).node < nodes
          then { j with node := (v.plugs p).node } else j).node = n := by
      intro n hn h0 h1
      rw [hn]
      by_cases he : n = j.node
      · rw [if_neg (fun c => c.1 he)]; exact he.symm
      · rw [if_pos ⟨he, hl, h0, h1⟩]
    refine ⟨?_, ?_⟩
    · intro s hs hn
      obtain ⟨g1, g2⟩ := n1 s hs hn
      exact ⟨g2, fun h0 h1 => place _ g1 h0 h1⟩
    · intro s hs hn h0 h1
      exact place _ (n2 s hs hn) h0 h1

/-- **C29.** A direct connection request alone (nothing else requested, not disabled, no socket twice on the
list) is followed in one update, without an exception: the plug ends in the requested socket if that was empty
or already held it, and in none if another plug was there or "no connection" was requested. -/
theorem c29_direct {w : World} (h : Agreement w) (p : Nat) (node : Int)
    (hlist : ∀ i j, i < (w.plugs p).size → j < (w.plugs p).size → (w.plugs p).list i = (w.plugs p).list j → i = j)
    (hd : (w.plugs p).disable = false) (hc : (w.plugs p).connReq = (w.plugs p).size)
    (hx : (w.plugs p).discReq = (w.plugs p).size) :
    (∀ i, i < (w.plugs p).size → (w.plugs p).direct = (i : Int) →
      ((w.sockets ((w.plugs p).list i)).conn = none ∨ (w.sockets ((w.plugs p).list i)).conn = some p) →
      ∃ w', update w p node = .ok w' ∧ (w'.plugs p).active = (i : Int) ∧
        (w'.sockets ((w.plugs p).list i)).conn = some p) ∧
    (∀ i q, i < (w.plugs p).size → (w.plugs p).direct = (i : Int) → q ≠ p →
      (w.sockets ((w.plugs p).list i)).conn = some q →
      ∃ w', update w p node = .ok w' ∧ (w'.plugs p).active = (w.plugs p).size ∧
        (∀ s, (w'.sockets s).conn ≠ some p) ∧ (w'.sockets ((w.plugs p).list i)).conn = some q) ∧
    ((w.plugs p).direct = (w.plugs p).size →
      ∃ w', update w p node = .ok w' ∧ (w'.plugs p).active = (w.plugs p).size ∧
        ∀ s, (w'.sockets s).conn ≠ some p) := by
  rw [agreement_iff] at h
  obtain ⟨hE, hA⟩ := h
  obtain ⟨q, eq, q1, q2, q3, q4, q5⟩ := direct_plug hE (node := node) hd
  set w2 := w.setPlug p q with hw2
  have e2 : Exclusive w2 := exclusive_setPlug hE q1 q2
  have a2 : Accurate w2 p := accurate_setPlug (hA p) q1 q2 q3
  have hq : w2.plugs p = q := setPlug_same w p q
  -- What an update with these parts ends in.
  have fin : ∀ w', update w p node = .ok w' → Accurate w' p ∧ Frame p w w' := by
    intro w' hu
    obtain ⟨-, h2, h3⟩ := update_spec hE p (hA p) node
    rw [hu] at h2 h3
    exact ⟨h2, h3⟩
  have finNone : ∀ w', update w p node = .ok w' → (∀ s, (w'.sockets s).conn ≠ some p) →
      (w'.plugs p).active = (w.plugs p).size := by
    intro w' hu hn
    obtain ⟨h1, h2⟩ := fin w' hu
    rcases h1 with ⟨h1, -⟩ | ⟨i, -, -, h1⟩
    · rw [h1, h2.size]
    · exact absurd h1 (hn _)
  have finAt : ∀ w' i, i < (w.plugs p).size → update w p node = .ok w' →
      (w'.sockets ((w.plugs p).list i)).conn = some p → (w'.plugs p).active = (i : Int) := by
    intro w' i hi hu hc
    obtain ⟨h1, h2⟩ := fin w' hu
    obtain ⟨h0, -, -⟩ := update_spec hE p (hA p) node
    rw [hu] at h0
    rcases h1 with ⟨-, h1⟩ | ⟨k, hk, ha, h1⟩
    · exact absurd hc (h1 _)
    · rw [h2.list] at h1
      rw [h2.size] at hk
      have := hlist k i hk hi (h0.uniq p _ _ h1 hc)
      rw [ha, this]
  -- The case without anything to do.
  have same : (w.plugs p).direct = (w.plugs p).active →
      ∃ w', update w p node = .ok w' ∧ w'.sockets = w.sockets := by
    intro hda
    obtain ⟨g1, g2⟩ := q4 hda
    obtain ⟨w3, e3, k3, c3, s3, l3⟩ := disc_keep (w := w2) (p := p) (by rw [hq, g1, q1]; exact hx)
    obtain ⟨-, -, -, u4, p4⟩ := updateActive_spec (w := w3) (by
      have := (processDisconnection_spec e2 p).1; rw [e3] at this; exact this) p
    obtain ⟨w5, e5, k5⟩ := conn_keep (w := updateActive w3 p) (p := p) (by
      rw [p4]; show (w3.plugs p).connReq = (w3.plugs p).size
      rw [c3, s3, hq, g2, q1]; exact hc)
    obtain ⟨r1, r2⟩ := update_of (w := w) (node := node) (by rw [eq]; exact e3) e5
    exact ⟨_, r1, by rw [r2, k5, u4, k3]; rfl⟩
  -- The case with a release.
  have rel : 0 ≤ (w.plugs p).direct → (w.plugs p).direct ≤ (w.plugs p).size →
      (w.plugs p).direct ≠ (w.plugs p).active →
      ∃ w3, processDisconnection w2 p = .ok w3 ∧ Exclusive w3 ∧
        (∀ s, (w3.sockets s).conn = if (w.sockets s).conn = some p then none else (w.sockets s).conn) ∧
        ((updateActive w3 p).plugs p).active = (w.plugs p).size ∧
        ((updateActive w3 p).plugs p).size = (w.plugs p).size ∧
        ((updateActive w3 p).plugs p).list = (w.plugs p).list ∧
        ((updateActive w3 p).plugs p).connReq = q.connReq := by
    intro h0 h1 h2
    obtain ⟨g1, -⟩ := q5 h0 h1 h2
    obtain ⟨w3, e3, k3, c3, s3, l3⟩ := disc_release e2 a2 (by rw [hq, g1, q3])
    have hex3 : Exclusive w3 := by
      have := (processDisconnection_spec e2 p).1; rw [e3] at this; exact this
    obtain ⟨a4, -, -, u4, p4⟩ := updateActive_spec hex3 p
    have hsz : ((updateActive w3 p).plugs p).size = (w.plugs p).size := by
      rw [p4]; show (w3.plugs p).size = _; rw [s3, hq, q1]
    refine ⟨w3, e3, hex3, k3, ?_, hsz, ?_, ?_⟩
    · rcases a4 with ⟨a4, -⟩ | ⟨i, -, -, a4⟩
      · rw [a4, hsz]
      · rw [u4, k3] at a4
        by_cases hc : (w2.sockets ((updateActive w3 p).plugs p |>.list i)).conn = some p
        · rw [if_pos hc] at a4; cases a4
        · rw [if_neg hc] at a4; exact absurd a4 hc
    · rw [p4]; show (w3.plugs p).list = _; rw [l3, hq, q2]
    · rw [p4]; show (w3.plugs p).connReq = _; rw [c3, hq]
  refine ⟨?_, ?_, ?_⟩
  · intro i hi hdi hcon
    by_cases hda : (w.plugs p).direct = (w.plugs p).active
    · obtain ⟨w', hu, hs⟩ := same hda
      have hheld : (w.sockets ((w.plugs p).list i)).conn = some p := by
        rcases hA p with ⟨h1, -⟩ | ⟨k, hk, h1, h2⟩
        · rw [h1, hdi] at hda; omega
        · have : k = i := by rw [h1, hdi] at hda; omega
          rw [← this]; exact h2
      have hc' : (w'.sockets ((w.plugs p).list i)).conn = some p := by rw [hs]; exact hheld
      exact ⟨w', hu, finAt w' i hi hu hc', hc'⟩
    · have h0 : 0 ≤ (w.plugs p).direct := by omega
      have h1 : (w.plugs p).direct ≤ (w.plugs p).size := by omega
      have hnone : (w.sockets ((w.plugs p).list i)).conn = none := by
        rcases hcon with hcon | hcon
        · exact hcon
        · exfalso
          rcases hA p with ⟨-, h2⟩ | ⟨k, hk, ha, h2⟩
          · exact h2 _ hcon
          · have := hlist k i hk hi (hE.uniq p _ _ h2 hcon)
            rw [hdi, ha, this] at hda
            exact hda rfl
      obtain ⟨w3, e3, hex3, k3, act, sz, ls, cr⟩ := rel h0 h1 hda
      have hcr := (q5 h0 h1 hda).2.2 i hi hdi
      rw [if_pos hnone] at hcr
      obtain ⟨-, -, -, u4, -⟩ := updateActive_spec hex3 p
      obtain ⟨w5, e5, k5⟩ := conn_take (w := updateActive w3 p) (p := p) (i := i) (by rw [sz]; exact hi)
        (by rw [cr, hcr]) (by rw [act, sz]) (by rw [ls, u4, k3, if_neg (by rw [hnone]; exact fun c => by cases c), hnone])
      obtain ⟨r1, r2⟩ := update_of (w := w) (node := node) (by rw [eq]; exact e3) e5
      have hc' : ((updateActive w5 p).sockets ((w.plugs p).list i)).conn = some p := by
        rw [r2, k5, ls, if_pos rfl]
      exact ⟨_, r1, finAt _ i hi r1 hc', hc'⟩
  · intro i k hi hdi hk hcon
    have hda : (w.plugs p).direct ≠ (w.plugs p).active := by
      intro c
      rcases hA p with ⟨h1, -⟩ | ⟨m, hm, ha, h2⟩
      · rw [h1, hdi] at c; omega
      · have : m = i := by rw [ha, hdi] at c; omega
        rw [this, hcon] at h2
        exact hk (Option.some.inj h2)
    have h0 : 0 ≤ (w.plugs p).direct := by omega
    have h1 : (w.plugs p).direct ≤ (w.plugs p).size := by omega
    obtain ⟨w3, e3, hex3, k3, act, sz, ls, cr⟩ := rel h0 h1 hda
    have hcr := (q5 h0 h1 hda).2.2 i hi hdi
    rw [if_neg (by rw [hcon]; exact Option.some_ne_none k), hc] at hcr
    obtain ⟨-, -, -, u4, -⟩ := updateActive_spec hex3 p
    obtain ⟨w5, e5, k5⟩ := conn_keep (w := updateActive w3 p) (p := p) (by rw [cr, hcr, sz])
    obtain ⟨r1, r2⟩ := update_of (w := w) (node := node) (by rw [eq]; exact e3) e5
    have hno : ∀ s, ((updateActive w5 p).sockets s).conn ≠ some p := by
      intro s
      rw [r2, k5, u4, k3]
      split_ifs with c
      · exact fun c' => by cases c'
      · exact c
    refine ⟨_, r1, finNone _ r1 hno, hno, ?_⟩
    rw [r2, k5, u4, k3, if_neg (by rw [hcon]; exact fun c => hk (Option.some.inj c)), hcon]
  · intro hds
    by_cases hda : (w.plugs p).direct = (w.plugs p).active
    · obtain ⟨w', hu, hs⟩ := same hda
      have hno : ∀ s, (w'.sockets s).conn ≠ some p := by
        rw [hs]
        rcases hA p with ⟨-, h2⟩ | ⟨m, hm, ha, -⟩
        · exact h2
        · rw [ha, hds] at hda; omega
      exact ⟨w', hu, finNone w' hu hno, hno⟩
    · have h0 : 0 ≤ (w.plugs p).direct := by omega
      have h1 : (w.plugs p).direct ≤ (w.plugs p).size := by omega
      obtain ⟨w3, e3, hex3, k3, act, sz, ls, cr⟩ := rel h0 h1 hda
      have hcr := (q5 h0 h1 hda).2.1 hds
      obtain ⟨-, -, -, u4, -⟩ := updateActive_spec hex3 p
      obtain ⟨w5, e5, k5⟩ := conn_keep (w := updateActive w3 p) (p := p) (by rw [cr, hcr, hc, sz])
      obtain ⟨r1, r2⟩ := update_of (w := w) (node := node) (by rw [eq]; exact e3) e5
      have hno : ∀ s, ((updateActive w5 p).sockets s).conn ≠ some p := by
        intro s
        rw [r2, k5, u4, k3]
        split_ifs with c
        · exact fun c' => by cases c'
        · exact c
      exact ⟨_, r1, finNone _ r1 hno, hno⟩

/-- Two sockets on nodes 1 and 2 with ambient node 3; three plugs that can use both. -/
def sampleSockets : World where
  sockets s := { node0 := s + 1, node1 := 3, conn := none, has := false }
  plugs _ := { size := 2, list := id, tracksLast := true, active := 2, last := 2, connReq := 2, discReq := 2,
               direct := -99, disable := false, node := 0 }

theorem sampleSockets_unplugged : Unplugged sampleSockets := ⟨fun _ => ⟨rfl, rfl⟩, fun _ => rfl⟩

/-- Plug 0 takes socket 0; plug 1 is refused there and takes socket 1; plug 0 asks for socket 1 without
unplugging and is refused; it unplugs. -/
example : (let w := [Op.connect 0 0, .update 0 0, .connect 1 0, .update 1 0].foldl Op.run sampleSockets;
    ((w.plugs 0).active, (w.plugs 0).node, (w.plugs 1).active, (w.sockets 0).conn)) = (0, 1, 2, some 0) ∧
  (let w := [Op.connect 0 0, .update 0 0, .connect 1 1, .update 1 0, .connect 0 1, .update 0 1].foldl Op.run sampleSockets;
    ((w.plugs 0).active, (w.plugs 1).active, (w.sockets 1).conn)) = (0, 1, some 1) ∧
  (let w := [Op.connect 0 0, .update 0 0, .disconnect 0 0, .update 0 1].foldl Op.run sampleSockets;
    ((w.plugs 0).active, (w.plugs 0).node, (w.sockets 0).conn)) = (2, 3, none) := by
  decide +kernel

/-- The cases of the direct request on the sample: empty socket, occupied socket, no connection. -/
example : (let w := [Op.direct 0 1, .update 0 0].foldl Op.run sampleSockets;
    ((w.plugs 0).active, (w.sockets 1).conn)) = (1, some 0) ∧
  (let w := [Op.connect 1 1, .update 1 0, .connect 0 0, .update 0 0, .direct 0 1, .update 0 0].foldl Op.run sampleSockets;
    ((w.plugs 0).active, (w.sockets 0).conn, (w.sockets 1).conn)) = (2, none, some 1) ∧
  (let w := [Op.connect 0 0, .update 0 0, .direct 0 2, .update 0 0].foldl Op.run sampleSockets;
    ((w.plugs 0).active, (w.sockets 0).conn)) = (2, none) := by
  decide +kernel

/-- **C29.** Why the node map must not be locked: with a locked map the plug is in the socket, the socket and
the plug both say so, but the jumper's port stays where it was. -/
theorem c29_locked_port : let w := (Op.connect 0 0).run sampleSockets;
    let r := updatePort w 0 { node := 0, locked := true } 4;
    (r.1.world.sockets 0).conn = some 0 ∧ (r.1.world.plugs 0).active = 0 ∧ r.2.node = 0 ∧
      (r.1.world.sockets 0).node0 = 1 := by
  decide +kernel

/-- **C29.** A connected plug does not follow its socket: when the socket's port is moved the next update
leaves the jumper's port on the old node. -/
theorem c29_moved_socket : let w := [Op.connect 0 0, .update 0 0, .move 0 2 3].foldl Op.run sampleSockets;
    let r := updatePort w 0 { node := 1, locked := false } 4;
    (r.1.world.sockets 0).conn = some 0 ∧ (r.1.world.sockets 0).node0 = 2 ∧ r.2.node = 1 := by
  decide +kernel

/-- **C29.** A direct request for an occupied socket is said to leave the plug disconnected; with an ordinary
connection request pending it is plugged into that other socket instead. -/
theorem c29_direct_occupied_connects :
    let w := [Op.connect 1 0, .update 1 0, .connect 0 1, .direct 0 0, .update 0 0].foldl Op.run sampleSockets;
    (w.plugs 0).active = 1 ∧ (w.sockets 1).conn = some 0 := by
  decide +kernel

end Gunns.Props
