import Verif.Plugs.Throw

/-!
# C53: the plugs of jumpers and their sockets

`GunnsBasicJumper`, `GunnsBasicJumperPlug` and `GunnsBasicSocket`.
-/

namespace Gunns.Props

open Gunns.Plugs
open Gunns.Plugs.Spec

/-- After any history of initializations, requests (valid or not), steps, restarts, port moves and
exceptions, no plug is in two sockets, a plug is only in sockets of its list, and every plug knows where
it is. -/
theorem c53_exclusive {w : World} (h : Reach w) :
    (∀ s t id, w.sock s = some id → w.sock t = some id → s = t)
      ∧ (∀ s id, w.sock s = some id → s ∈ (w.plug id).sockets)
      ∧ ∀ id o, In w id o ↔ Means (w.plug id) (w.plug id).active o := by
  have hi := reach_inv h
  exact ⟨hi.excl, hi.mem, fun id o => in_iff hi (fun hf => hf) o⟩

/-- The update of a plug, whatever its requests and whether or not it throws, moves no other plug and
changes nothing of it, and moves no node. -/
theorem c53_others {w : World} (h : Reach w) (id node : Nat) :
    (∀ s q, q ≠ id → ((update w id node).world.sock s = some q ↔ w.sock s = some q))
      ∧ (∀ q, q ≠ id → (update w id node).world.plug q = w.plug q)
      ∧ (update w id node).world.inner = w.inner ∧ (update w id node).world.outer = w.outer
      ∧ (update w id node).world.link = w.link := by
  obtain ⟨_, h2, h3⟩ := update_inv (reach_inv h) id node
  exact ⟨h3, h2.2.2.2.2.2, h2.1, h2.2.1, h2.2.2.1⟩

/-- The update of a plug with requests for sockets that exist does not throw, clears the requests, and
takes the plug and its end where the specification says: pulled out of a socket it is in (or, if in none,
into the air around it), then put into a socket if that is free, a direct request coming first. -/
theorem c53_update {w : World} (h : Reach w) (id node : Nat) {a dis con : Option Nat}
    {dir : Option (Option Nat)} (ha : In w id a) (hd : Means (w.plug id) (w.plug id).dis dis)
    (hc : Means (w.plug id) (w.plug id).con con) (hr : Directed (w.plug id) dir) :
    (update w id node).threw = false
      ∧ In (update w id node).world id
          (turn w.inner w.outer (busyFor w id) ⟨a, node⟩ dis con dir).at?
      ∧ (update w id node).node
          = (turn w.inner w.outer (busyFor w id) ⟨a, node⟩ dis con dir).node
      ∧ Means ((update w id node).world.plug id) ((update w id node).world.plug id).dis none
      ∧ Means ((update w id node).world.plug id) ((update w id node).world.plug id).con none := by
  obtain ⟨h1, _, h3, _, h5, h6, h7, h8⟩ := update_spec (reach_inv h) id node ha hd hc hr
  have hno : (w.plug id).no = ((update w id node).world.plug id).no := by
    unfold Plug.no; rw [h3.2.2.2.2.1 id]
  exact ⟨h1, h5, h6, h7.trans hno, h8.trans hno⟩

/-- The case analysis of `c53_update` is complete when the requests are for sockets that exist. -/
theorem c53_update_total {w : World} (id : Nat) (hs : Sound (w.plug id)) :
    ∃ a dis con dir, In w id a ∧ Means (w.plug id) (w.plug id).dis dis
      ∧ Means (w.plug id) (w.plug id).con con ∧ Directed (w.plug id) dir := by
  obtain ⟨a, ha⟩ := in_exists w id
  obtain ⟨⟨dis, hd⟩, ⟨con, hc⟩⟩ := sound_means hs
  obtain ⟨dir, hr⟩ := directed_exists (w.plug id)
  exact ⟨a, dis, con, dir, ha, hd, hc, hr⟩

/-- Without a direct request, an update throws exactly when a plug in no socket is asked for a socket that
does not exist, or a plug is asked to leave its socket for one that does not exist. -/
theorem c53_throw {w : World} (h : Reach w) (id node : Nat) (hd : Directed (w.plug id) none) :
    (update w id node).threw = true
      ↔ (In w id none ∧ ¬ Sound (w.plug id))
        ∨ (¬ (0 ≤ (w.plug id).con ∧ (w.plug id).con ≤ (w.plug id).sockets.length)
            ∧ (w.plug id).dis = (w.plug id).active) := by
  have hi := reach_inv h
  rw [(throw_iff hi id node hd).1, in_iff hi (fun hf => hf) none]
  unfold Sound Rng Plug.no
  constructor
  · rintro (⟨h1, h2⟩ | ⟨h1, h2⟩)
    · left
      refine ⟨h1, fun hh => ?_⟩
      rcases h2 with h2 | h2
      · exact h2 hh.2
      · exact h2 hh.1
    · exact Or.inr ⟨h1, h2⟩
  · rintro (⟨h1, h2⟩ | ⟨h1, h2⟩)
    · left
      refine ⟨h1, ?_⟩
      by_cases hc : 0 ≤ (w.plug id).con ∧ (w.plug id).con ≤ (w.plug id).sockets.length
      · exact Or.inl (fun hh => h2 ⟨hc, hh⟩)
      · exact Or.inr hc
    · exact Or.inr ⟨h1, h2⟩

/-- Once it has thrown, every later update throws too, until a user changes the requests: the bad request
is not cleared. -/
theorem c53_throw_stays {w : World} (h : Reach w) (id node node' : Nat) (hd : Directed (w.plug id) none)
    (ht : (update w id node).threw = true) :
    (update (update w id node).world id node').threw = true := by
  have hi := reach_inv h
  obtain ⟨h1, h2, h3⟩ := (throw_iff hi id node hd).2 ht
  exact (throw_iff (update_inv hi id node).1 id node' h1).1.mpr (Or.inl ⟨h2, h3⟩)

/-- A direct request for a socket: after one update the plug is there if the socket was free or already
its own, and in no socket otherwise. -/
theorem c53_direct {w : World} (h : Reach w) (id node s : Nat)
    (hd : Means (w.plug id) (w.plug id).dis none) (hc : Means (w.plug id) (w.plug id).con none)
    (hr : Directed (w.plug id) (some (some s))) :
    ((w.sock s = none ∨ w.sock s = some id) → In (update w id node).world id (some s))
      ∧ (¬ (w.sock s = none ∨ w.sock s = some id) → In (update w id node).world id none) := by
  obtain ⟨a, ha⟩ := in_exists w id
  have hi := reach_inv h
  have h5 := (update_spec hi id node ha hd hc hr).2.2.2.2.1
  rw [turn_direct] at h5
  have hb : busyFor w id s = true ↔ ¬ (w.sock s = none ∨ w.sock s = some id) := by
    unfold busyFor
    rcases w.sock s with _ | q
    · simp
    · simp
  constructor
  · intro hf
    by_cases h1 : a = some s
    · rw [if_pos h1] at h5; exact h5
    · rw [if_neg h1, if_neg (fun hh => (hb.mp hh) hf)] at h5
      exact h5
  · intro hf
    have h1 : a ≠ some s := by
      intro hh; rw [hh] at ha; exact hf (Or.inr ha)
    rw [if_neg h1, if_pos (hb.mpr hf)] at h5
    exact h5

/-- A direct request to be nowhere: after one update the plug is nowhere, in the air around the socket it
was in. -/
theorem c53_direct_none {w : World} (h : Reach w) (id node : Nat)
    (hd : Means (w.plug id) (w.plug id).dis none) (hc : Means (w.plug id) (w.plug id).con none)
    (hr : Directed (w.plug id) (some none)) :
    In (update w id node).world id none
      ∧ (∀ s, w.sock s = some id → (update w id node).node = w.outer s)
      ∧ (In w id none → (update w id node).node = node) := by
  obtain ⟨a, ha⟩ := in_exists w id
  have hi := reach_inv h
  obtain ⟨_, _, _, _, h5, h6, _⟩ := update_spec hi id node ha hd hc hr
  rcases a with _ | t
  · have ht : turn w.inner w.outer (busyFor w id) ⟨none, node⟩ none none (some none) = ⟨none, node⟩ := by
      simp [turn, asked, pull, put]
    rw [ht] at h5 h6
    exact ⟨h5, fun s hs => absurd hs (ha s), fun _ => h6⟩
  · have ht : turn w.inner w.outer (busyFor w id) ⟨some t, node⟩ none none (some none)
        = ⟨none, w.outer t⟩ := by
      simp [turn, asked, pull, put]
    rw [ht] at h5 h6
    refine ⟨h5, fun s hs => ?_, fun hn => absurd ha (hn t)⟩
    have he : t = s := hi.excl t s id ha hs
    rw [← he]
    exact h6

/-- Any number of plugs directed to different sockets are all there after two rounds of updates, in
whatever order each round goes through them, even if at first they block one another in a circle. -/
theorem c53_rounds {w : World} (h : Reach w) (ids : List Nat) (T : Nat → Nat)
    (hT : ∀ i ∈ ids, ∀ j ∈ ids, T i = T j → i = j)
    (hd : ∀ id ∈ ids, Directed (w.plug id) (some (some (T id))))
    (hq : ∀ id ∈ ids, Means (w.plug id) (w.plug id).con none ∧ Means (w.plug id) (w.plug id).dis none)
    (hown : ∀ id ∈ ids, ∀ q, w.sock (T id) = some q → q ∈ ids)
    (l m : List Nat) (hl : ∀ i, i ∈ l ↔ i ∈ ids) (hm : ∀ i, i ∈ m ↔ i ∈ ids) (n n' : Nat → Nat) :
    ∀ id ∈ ids, (round n' (round n w l) m).sock (T id) = some id := by
  have ht : Told w ids T := ⟨reach_inv h, hd, hq, hown⟩
  obtain ⟨a1, a2⟩ := round_first hT n l (fun i hi => (hl i).mp hi) ht (fun _ => False)
    (fun _ hf => hf.elim)
  intro id hid
  exact round_second hT n' m (fun i hi => (hm i).mp hi) a1 (fun q hqm => a2 q (Or.inr ((hl q).mpr hqm)))
    (fun _ => False) (fun _ hf => hf.elim) id (Or.inr ((hm id).mpr hid))

/-- A port moves exactly when the ports are not locked, the node exists, and the other port is not at the
same node, unless that is the ground. Nothing else moves. -/
theorem c53_port (w : World) (j : Nat) (k : Bool) (n : Nat) :
    (((setPort w j k n).link j).node k = n
        ↔ (w.link j).node k = n
          ∨ ((w.link j).locked = false ∧ n ≤ w.ground ∧ ((w.link j).node (!k) = n → n = w.ground)))
      ∧ (((setPort w j k n).link j).node k = n ∨ ((setPort w j k n).link j).node k = (w.link j).node k)
      ∧ ((setPort w j k n).link j).node (!k) = (w.link j).node (!k)
      ∧ ∀ i, i ≠ j → (setPort w j k n).link i = w.link i := by
  unfold setPort
  dsimp only
  by_cases hc : (w.link j).locked = false ∧ n ≤ w.ground
      ∧ ¬ ((w.link j).node (!k) = n ∧ n < w.ground)
  · rw [if_pos hc]
    unfold setLink
    dsimp only
    rw [if_pos rfl]
    dsimp only
    rw [if_pos rfl, if_neg (by cases k <;> decide)]
    refine ⟨⟨fun _ => Or.inr ⟨hc.1, hc.2.1, fun he => ?_⟩, fun _ => rfl⟩, Or.inl rfl, rfl,
      fun i hi => if_neg hi⟩
    by_contra hne
    exact hc.2.2 ⟨he, by have := hc.2.1; omega⟩
  · rw [if_neg hc]
    refine ⟨⟨fun he => Or.inl he, fun he => ?_⟩, Or.inr rfl, rfl, fun _ _ => rfl⟩
    rcases he with he | ⟨h1, h2, h3⟩
    · exact he
    · exact absurd ⟨h1, h2, fun hh => absurd (h3 hh.1) (by omega)⟩ hc

/-- If all sockets have the ground as ambient node and different nodes behind them, and the ports are left
to the jumpers, then after any history of initializations, direct and other requests, steps and restarts,
both ends of every jumper are where their plugs are. -/
theorem c53_ends {w : World} (h : Fresh w) (hs : ∀ id, Sound (w.plug id)) (hg : Grounded w)
    (h1 : OneEnd w) (ha : Apart w) (hu : ∀ j, (w.link j).locked = false)
    (hn : ∀ j k id, (w.link j).plug k = some id → (w.link j).node k = w.ground) (es : List Ev)
    (he : ∀ e ∈ es, Plain (fun id => (w.plug id).sockets.length) e) (j : Nat) (k : Bool) :
    RightEnd (happens w es) j k := by
  have hf : Fit (fun id => (w.plug id).sockets.length) (fun _ _ => True) w := by
    refine ⟨fresh_inv h, fun _ => rfl, hs, hg, h1, ha, hu, fun j k _ id hid => ⟨fun s hsk => ?_, fun _ => ?_⟩,
      fun j k id hf => absurd trivial hf⟩
    · rw [h.1 s] at hsk; cases hsk
    · exact hn j k id hid
  exact (fit_happens hf es he).right j k trivial

/-- A restart from a checkpoint leaves all plugs where they are and does not throw, if no direct request
tells its plugs to be elsewhere. -/
theorem c53_restart {w : World} (h : Reach w) (j : Nat)
    (h2 : ∀ id, (w.link j).plug false = some id → (w.link j).plug true ≠ some id)
    (hc : ∀ k id, (w.link j).plug k = some id → Settled w id) :
    (restart w j).2 = false ∧ (restart w j).1.sock = w.sock :=
  restart_keeps (reach_inv h) j h2 (fun k id hid => settled_content (reach_inv h) (hc k id hid))

/-- And it brings the ends of the jumper back to where the plugs are, though all of them were back at the
ground where they began, as the checkpoint does not keep them. -/
theorem c53_restart_ends {w : World} (h : Reach w) (hs : ∀ id, Sound (w.plug id)) (hg : Grounded w)
    (h1 : OneEnd w) (ha : Apart w) (hu : ∀ j, (w.link j).locked = false)
    (hn : ∀ j k id, (w.link j).plug k = some id → (w.link j).node k = w.ground) (j : Nat)
    (hc : ∀ k id, (w.link j).plug k = some id → Settled w id) (k : Bool) :
    RightEnd (restart w j).1 j k := by
  have hf : Fit (fun id => (w.plug id).sockets.length) (fun _ _ => False) w :=
    ⟨reach_inv h, fun _ => rfl, hs, hg, h1, ha, hu, fun j k hf => hf.elim, fun j k id _ => hn j k id⟩
  exact restart_fit hf j (fun k id hid => settled_content (reach_inv h) (hc k id hid)) k

/-- The jumper conducts exactly when its ends are at different nodes and every end that seals itself has
its plug in a socket. A socket conducts to its ambient node exactly when it neither seals itself nor has a
plug. -/
theorem c53_seal {w : World} (h : Reach w) (j s : Nat) (b : Bool) :
    (jumperOpen w j = true
        ↔ (w.link j).node false ≠ (w.link j).node true
          ∧ ∀ k id, (w.link j).plug k = some id → (w.link j).sealing k = true →
              ∃ t, w.sock t = some id)
      ∧ (socketOpen w s b = true ↔ b = false ∧ w.sock s = none) := by
  have hi := reach_inv h
  constructor
  · have hend : ∀ k, (match (w.link j).plug k with
        | none => false
        | some id => (w.link j).sealing k && decide ((w.plug id).no = (w.plug id).active)) = false
        ↔ ∀ id, (w.link j).plug k = some id → (w.link j).sealing k = true → ∃ t, w.sock t = some id := by
      intro k
      rcases hp : (w.link j).plug k with _ | id
      · exact ⟨fun _ _ hf => (by cases hf), fun _ => rfl⟩
      · dsimp only
        rw [Bool.and_eq_false_iff]
        have hin : decide ((w.plug id).no = (w.plug id).active) = false ↔ ∃ t, w.sock t = some id := by
          rw [decide_eq_false_iff_not]
          have := in_iff hi (id := id) (fun hf => hf) none
          constructor
          · intro hne
            by_contra hcon
            exact hne (this.mp (fun t ht => hcon ⟨t, ht⟩)).symm
          · rintro ⟨t, ht⟩ heq
            exact this.mpr heq.symm t ht
        rw [hin]
        constructor
        · rintro (h1 | h1) q hq hsl
          · rw [h1] at hsl; cases hsl
          · obtain rfl := Option.some.inj hq
            exact h1
        · intro hh
          rcases hsl : (w.link j).sealing k
          · exact Or.inl rfl
          · exact Or.inr (hh id rfl hsl)
    unfold jumperOpen
    dsimp only
    rw [Bool.not_eq_true', Bool.or_eq_false_iff, Bool.or_eq_false_iff,
      decide_eq_false_iff_not]
    constructor
    · rintro ⟨⟨h1, h2⟩, h3⟩
      refine ⟨h3, fun k => ?_⟩
      cases k
      · exact (hend false).mp h1
      · exact (hend true).mp h2
    · rintro ⟨h1, h2⟩
      exact ⟨⟨(hend false).mpr (h2 false), (hend true).mpr (h2 true)⟩, h1⟩
  · unfold socketOpen
    cases b <;> rcases w.sock s with _ | q <;> simp

/-! ## A plug in no socket, its end still at one -/

/-- Two sockets with one ambient node, which is not the ground, and a jumper with a plug at each end. -/
def cabin : World where
  plug := fun id => if id < 2 then ⟨[0, 1], 2, 2, 2, 2, -99, false⟩ else ⟨[], 0, 0, 0, 0, -99, false⟩
  sock := fun _ => none
  inner := fun s => s
  outer := fun _ => 2
  link := fun j => ⟨fun k => if j = 0 then (if k = false then some 0 else some 1) else none,
    fun _ => 3, fun _ => false, false⟩
  ground := 3

/-- Both plugs are put in, and then both are asked out. -/
def inAndOut : List Ev :=
  [.start 0 0 1, .request 0 2 0 (-99) false, .request 1 2 1 (-99) false, .step 0]

theorem cabin_fresh : Fresh cabin := by
  refine ⟨fun _ => rfl, fun id => ?_⟩
  show (if id < 2 then (⟨[0, 1], 2, 2, 2, 2, -99, false⟩ : Plug)
    else ⟨[], 0, 0, 0, 0, -99, false⟩).sockets.Nodup ∧ _
  unfold cabin
  dsimp only
  by_cases h : id < 2
  · rw [if_pos h]; exact ⟨by decide, rfl, rfl⟩
  · rw [if_neg h]; exact ⟨by decide, rfl, rfl⟩

/-- What happens there: the first end goes to the ambient node, and the second is refused it, because the
first is there. The second plug is in no socket, but its end stays at the node of the socket it was in, and
the jumper conducts from that node to the cabin. No later step mends it. -/
theorem c53_stranded (n : Nat) :
    let w := happens cabin (inAndOut ++ List.replicate n (.step 0))
    In w 0 none ∧ In w 1 none ∧ (w.link 0).node false = w.outer 0 ∧ (w.link 0).node true = w.inner 1
      ∧ w.inner 1 ≠ w.outer 1 ∧ jumperOpen w 0 = true := by
  obtain ⟨v, hv⟩ : ∃ v, v = happens cabin inAndOut := ⟨_, rfl⟩
  have hi : Inv v := by rw [hv]; exact happens_inv (fresh_inv cabin_fresh) _
  have hl : ∀ k, (v.link 0).plug k = if k = false then some 0 else some 1 := by
    intro k; rw [hv]; cases k <;> decide +kernel
  have p0 : v.plug 0 = ⟨[0, 1], 2, 0, 2, 2, -99, false⟩ := by rw [hv]; decide +kernel
  have p1 : v.plug 1 = ⟨[0, 1], 2, 1, 2, 2, -99, false⟩ := by rw [hv]; decide +kernel
  have hstep : (updatePlugs v 0) = (v, false) := by
    refine idle_step hi 0 (fun k id hid => ?_)
    rw [hl] at hid
    cases k
    · rw [if_pos rfl] at hid
      obtain rfl := Option.some.inj hid
      rw [p0]; exact ⟨rfl, Or.inl (by decide), rfl, rfl⟩
    · rw [if_neg (by decide)] at hid
      obtain rfl := Option.some.inj hid
      rw [p1]; exact ⟨rfl, Or.inl (by decide), rfl, rfl⟩
  have hrep : happens cabin (inAndOut ++ List.replicate n (.step 0)) = v := by
    unfold happens
    rw [List.foldl_append]
    have hv' : List.foldl happen cabin inAndOut = v := hv.symm
    rw [hv']
    induction n with
    | zero => rfl
    | succ n ih =>
      rw [List.replicate_succ, List.foldl_cons]
      have : happen v (.step 0) = v := by
        show (updatePlugs v 0).1 = v
        rw [hstep]
      rw [this]
      exact ih
  dsimp only
  rw [hrep]
  refine ⟨(in_iff hi (fun hf => hf) none).mpr (by rw [p0]; rfl),
    (in_iff hi (fun hf => hf) none).mpr (by rw [p1]; rfl), ?_, ?_, ?_, ?_⟩
  · rw [hv]; decide +kernel
  · rw [hv]; decide +kernel
  · rw [hv]; decide +kernel
  · rw [hv]; decide +kernel

/-- The same jumper with the ground as ambient node meets all that `c53_ends` asks, and goes through the
same events as it should. -/
def docked : World :=
  { cabin with
    outer := fun _ => 3 }

example : Fresh docked ∧ (∀ id, Sound (docked.plug id)) ∧ Grounded docked ∧ OneEnd docked ∧ Apart docked
    ∧ (∀ j, (docked.link j).locked = false)
    ∧ (∀ j k id, (docked.link j).plug k = some id → (docked.link j).node k = docked.ground)
    ∧ (∀ e ∈ inAndOut, Plain (fun id => (docked.plug id).sockets.length) e) := by
  have hlist : ∀ s, Listed docked s → s < 2 := by
    rintro s ⟨id, hs⟩
    have hs' : s ∈ (if id < 2 then (⟨[0, 1], 2, 2, 2, 2, -99, false⟩ : Plug)
      else ⟨[], 0, 0, 0, 0, -99, false⟩).sockets := hs
    by_cases h : id < 2
    · rw [if_pos h] at hs'
      simp at hs'
      omega
    · rw [if_neg h] at hs'
      simp at hs'
  refine ⟨cabin_fresh, fun id => ?_, fun s hs => ?_, ?_, ?_, fun _ => rfl, fun _ _ _ _ => rfl, ?_⟩
  · show Sound (if id < 2 then (⟨[0, 1], 2, 2, 2, 2, -99, false⟩ : Plug)
      else ⟨[], 0, 0, 0, 0, -99, false⟩)
    by_cases h : id < 2
    · rw [if_pos h]; unfold Sound; decide
    · rw [if_neg h]; unfold Sound; decide
  · have := hlist s hs
    exact ⟨rfl, by show s < 3; omega, fun t _ ht => ht⟩
  · intro i j k m id h1 h2
    have h1' : (if i = 0 then (if k = false then some 0 else some 1) else none) = some id := h1
    have h2' : (if j = 0 then (if m = false then some 0 else some 1) else none) = some id := h2
    by_cases hi : i = 0
    · by_cases hj : j = 0
      · rw [if_pos hi] at h1'
        rw [if_pos hj] at h2'
        refine ⟨hi.trans hj.symm, ?_⟩
        cases k <;> cases m <;> simp at h1' h2' <;> first | rfl | omega
      · rw [if_neg hj] at h2'; cases h2'
    · rw [if_neg hi] at h1'; cases h1'
  · intro j k _ s hs
    have := hlist s hs
    show 3 ≠ s
    omega
  · intro e he
    simp only [inAndOut, List.mem_cons, List.not_mem_nil, or_false] at he
    rcases he with rfl | rfl | rfl | rfl
    · trivial
    · show (_ ∧ _) ∧ _; decide +kernel
    · show (_ ∧ _) ∧ _; decide +kernel
    · trivial

/-- There the ends follow the plugs in and out. -/
example : ((happens docked (inAndOut.take 1)).link 0).node false = 0
    ∧ ((happens docked (inAndOut.take 1)).link 0).node true = 1
    ∧ ((happens docked inAndOut).link 0).node false = 3
    ∧ ((happens docked inAndOut).link 0).node true = 3 := by decide +kernel

/-- Two plugs in each other's sockets, each told to be where the other is. The first round leaves the first
plug out, and the second round has both where they should be. -/
def swapping : List Ev :=
  [.start 0 0 1, .request 0 2 2 1 false, .request 1 2 2 0 false]

example : ((happens docked swapping).sock 0, (happens docked swapping).sock 1) = (some 0, some 1)
    ∧ ((happens docked (swapping ++ [.step 0])).sock 0, (happens docked (swapping ++ [.step 0])).sock 1)
      = (some 1, none)
    ∧ ((happens docked (swapping ++ [.step 0, .step 0])).sock 0,
        (happens docked (swapping ++ [.step 0, .step 0])).sock 1) = (some 1, some 0) := by
  decide +kernel

/-- A jumper with both plugs in sockets, restarted with its ports back at the ground. -/
example :
    let w := happens docked (inAndOut.take 1 ++ [.movePort 0 false 3, .movePort 0 true 3])
    (w.link 0).node false = 3 ∧ (w.link 0).node true = 3 ∧ Settled w 0 ∧ Settled w 1
      ∧ ((restart w 0).1.link 0).node false = 0 ∧ ((restart w 0).1.link 0).node true = 1
      ∧ (restart w 0).1.sock 0 = some 0 ∧ (restart w 0).1.sock 1 = some 1 := by
  refine ⟨by decide +kernel, by decide +kernel, Or.inl (Or.inr (Or.inl (by decide +kernel))),
    Or.inl (Or.inr (Or.inl (by decide +kernel))), by decide +kernel, by decide +kernel,
    by decide +kernel, by decide +kernel⟩

/-- A plug in no socket asked for a third socket of two throws, and throws again. -/
example : (update (happens docked [.request 0 3 2 (-99) false]) 0 3).threw = true
    ∧ Directed ((happens docked [.request 0 3 2 (-99) false]).plug 0) none := by
  constructor
  · decide +kernel
  · exact Or.inr (Or.inl (by decide +kernel))

end Gunns.Props
