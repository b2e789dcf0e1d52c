import Verif.Plugs.Run

/-!
# The ends of jumpers
-/

namespace Gunns.Plugs

open Gunns.Plugs.Spec

/-- The node that belongs to a place. -/
def nodeOf (w : World) : Option Nat → Nat
  | some s => w.inner s
  | none => w.ground

/-- What is kept of the ends: those in `good` are right, the others are at the ground. -/
structure Fit (size : Nat → Nat) (good : Nat → Bool → Prop) (w : World) : Prop where
  inv : Inv w
  len : ∀ id, (w.plug id).sockets.length = size id
  sound : ∀ id, Sound (w.plug id)
  gr : Grounded w
  one : OneEnd w
  apart : Apart w
  free : ∀ j, (w.link j).locked = false
  right : ∀ j k, good j k → RightEnd w j k
  lost : ∀ j k id, ¬ good j k → (w.link j).plug k = some id → (w.link j).node k = w.ground

theorem right_iff {w : World} {j : Nat} {k : Bool} {id : Nat} (hp : (w.link j).plug k = some id) :
    RightEnd w j k ↔ ∀ o, In w id o → (w.link j).node k = nodeOf w o := by
  constructor
  · intro h o ho
    rcases o with _ | s
    · exact (h id hp).2 ho
    · exact (h id hp).1 s ho
  · intro h q hq
    rw [hp] at hq
    obtain rfl := Option.some.inj hq
    exact ⟨fun s hs => h (some s) hs, fun hn => h none hn⟩

/-- Only the plug at one end was changed, and that end was moved to where it belongs. -/
theorem fit_core {size : Nat → Nat} {good good' : Nat → Bool → Prop} {w v : World}
    (h : Fit size good w) {j : Nat} {k : Bool} {id : Nat} (hp : (w.link j).plug k = some id)
    (hg : ∀ j' k', good' j' k' ↔ good j' k' ∨ (j' = j ∧ k' = k))
    {o : Option Nat} (hi : Inv v) (hs : ∀ q, Sound (v.plug q))
    (hl : ∀ q, (v.plug q).sockets = (w.plug q).sockets) (h1 : v.inner = w.inner)
    (h2 : v.outer = w.outer) (h3 : v.ground = w.ground) (hsame : Same w v id) (ho : In v id o)
    (hk : ∀ j', (v.link j').plug = (w.link j').plug ∧ (v.link j').locked = (w.link j').locked)
    (hn : ∀ j' k', (v.link j').node k' = if j' = j ∧ k' = k then nodeOf w o else (w.link j').node k') :
    Fit size good' v := by
  have hother : ∀ j' k' q, ¬ (j' = j ∧ k' = k) → (w.link j').plug k' = some q → q ≠ id := by
    intro j' k' q hne hq he
    rw [he] at hq
    exact hne (h.one j' j k' k id hq hp)
  have hlist : ∀ s, Listed v s → Listed w s := by
    rintro s ⟨q, hq⟩
    exact ⟨q, by rw [← hl]; exact hq⟩
  refine ⟨hi, fun q => by rw [hl]; exact h.len q, hs, ?_, ?_, ?_, ?_, ?_, ?_⟩
  · intro s hsl
    rw [h1, h2, h3]
    obtain ⟨g1, g2, g3⟩ := h.gr s (hlist s hsl)
    exact ⟨g1, g2, fun t ht => g3 t (hlist t ht)⟩
  · intro a b c d q hc hd
    rw [(hk a).1] at hc
    rw [(hk b).1] at hd
    exact h.one a b c d q hc hd
  · intro j' k' hq s hsl
    rw [(hk j').1] at hq
    rw [hn, h1]
    by_cases hjk : j' = j ∧ k' = k
    · rw [hjk.1, hjk.2, hp] at hq; cases hq
    · rw [if_neg hjk]; exact h.apart j' k' hq s (hlist s hsl)
  · intro j'; rw [(hk j').2]; exact h.free j'
  · intro j' k' hgd q hq
    rw [(hk j').1] at hq
    rw [hn]
    by_cases hjk : j' = j ∧ k' = k
    · rw [if_pos hjk]
      rw [hjk.1, hjk.2, hp] at hq
      obtain rfl := Option.some.inj hq
      constructor
      · intro s hsk
        have he : o = some s := in_unique hi ho hsk
        rw [he, h1]; rfl
      · intro hnn
        have he : o = none := in_unique hi ho hnn
        rw [he, h3]; rfl
    · rw [if_neg hjk]
      have hqi := hother j' k' q hjk hq
      have hgo : good j' k' := by
        rcases (hg j' k').mp hgd with hh | hh
        · exact hh
        · exact absurd hh hjk
      have hr := h.right j' k' hgo q hq
      constructor
      · intro s hsk
        rw [h1]; exact hr.1 s ((hsame s q hqi).mp hsk)
      · intro hnn
        rw [h3]; exact hr.2 (fun s hsk => hnn s ((hsame s q hqi).mpr hsk))
  · intro j' k' q hgd hq
    rw [(hk j').1] at hq
    have hng : ¬ good j' k' := fun hh => hgd ((hg j' k').mpr (Or.inl hh))
    have hjk : ¬ (j' = j ∧ k' = k) := fun hh => hgd ((hg j' k').mpr (Or.inr hh))
    rw [hn, if_neg hjk, h3]
    exact h.lost j' k' q hng hq

/-- The node an end is moved to is accepted. -/
theorem fit_accept {size : Nat → Nat} {good : Nat → Bool → Prop} {w v : World} (h : Fit size good w)
    {j : Nat} {k : Bool} {id : Nat} (hp : (w.link j).plug k = some id) {o : Option Nat}
    (hi : Inv v) (hl : ∀ q, (v.plug q).sockets = (w.plug q).sockets)
    (hsame : Same w v id) (ho : In v id o) (hlk : v.link = w.link) (h3 : v.ground = w.ground) :
    setPort v j k (nodeOf w o) = setLink v j
      { v.link j with
        node := fun m => if m = k then nodeOf w o else (v.link j).node m } := by
  have hls : ∀ s, o = some s → Listed w s := by
    intro s hs
    subst hs
    exact ⟨id, by rw [← hl]; exact hi.mem s id ho⟩
  unfold setPort
  dsimp only
  rw [if_pos]
  rw [hlk, h3]
  refine ⟨h.free j, ?_, ?_⟩
  · rcases o with _ | s
    · exact Nat.le_refl _
    · exact Nat.le_of_lt ((h.gr s (hls s rfl)).2.1)
  · rintro ⟨he, hlt⟩
    rcases o with _ | s
    · exact absurd hlt (Nat.lt_irrefl _)
    · have he' : (w.link j).node (!k) = w.inner s := he
      rcases hq : (w.link j).plug (!k) with _ | q
      · exact h.apart j (!k) hq s (hls s rfl) he'
      · have hqi : q ≠ id := by
          intro hh
          rw [hh] at hq
          have := (h.one j j (!k) k id hq hp).2
          cases k <;> cases this
        by_cases hgd : good j (!k)
        · have hr := h.right j (!k) hgd q hq
          obtain ⟨a, ha⟩ := in_exists w q
          rcases a with _ | t
          · have := hr.2 ha
            rw [this] at he'
            have := (h.gr s (hls s rfl)).2.1
            omega
          · have hn := hr.1 t ha
            rw [hn] at he'
            have hts := (h.gr t ⟨q, h.inv.mem t q ha⟩).2.2 s (hls s rfl) he'
            have h5 : v.sock s = some q := (hsame s q hqi).mpr (hts ▸ ha)
            have h6 : v.sock s = some id := ho
            rw [h5] at h6
            exact hqi (Option.some.inj h6)
        · have := h.lost j (!k) q hgd hq
          rw [this] at he'
          have := (h.gr s (hls s rfl)).2.1
          omega

/-- The end was moved, or was already there. -/
theorem fit_move {size : Nat → Nat} {good good' : Nat → Bool → Prop} {w v : World}
    (h : Fit size good w) {j : Nat} {k : Bool} {id : Nat} (hp : (w.link j).plug k = some id)
    (hg : ∀ j' k', good' j' k' ↔ good j' k' ∨ (j' = j ∧ k' = k)) {o : Option Nat} (hi : Inv v)
    (hs : ∀ q, Sound (v.plug q)) (hst : Still w v id) (hsame : Same w v id) (ho : In v id o) (n : Nat)
    (hn : n = nodeOf w o) :
    Fit size good' (setPort v j k n) ∧ (n = (w.link j).node k → Fit size good' v) := by
  obtain ⟨s1, s2, s3, s4, s5, _⟩ := hst
  subst hn
  constructor
  · rw [fit_accept h hp hi s5 hsame ho s3 s4]
    refine fit_core (o := o) h hp hg (inv_congr hi rfl rfl) hs s5 s1 s2 s4 hsame ho
      (fun j' => ?_) (fun j' k' => ?_)
    · unfold setLink
      dsimp only
      by_cases hj : j' = j
      · rw [if_pos hj, hj, s3]; exact ⟨rfl, rfl⟩
      · rw [if_neg hj, s3]; exact ⟨rfl, rfl⟩
    · unfold setLink
      dsimp only
      by_cases hj : j' = j
      · rw [if_pos hj]
        dsimp only
        by_cases hk : k' = k
        · rw [if_pos hk, if_pos ⟨hj, hk⟩]
        · rw [if_neg hk, if_neg (fun hh => hk hh.2), s3, hj]
      · rw [if_neg hj, if_neg (fun hh => hj hh.1), s3]
  · intro he
    refine fit_core (o := o) h hp hg hi hs s5 s1 s2 s4 hsame ho
      (fun j' => by rw [s3]; exact ⟨rfl, rfl⟩) (fun j' k' => ?_)
    rw [s3]
    by_cases hjk : j' = j ∧ k' = k
    · rw [if_pos hjk, hjk.1, hjk.2, he]
    · rw [if_neg hjk]

theorem sound_means {p : Plug} (h : Sound p) : (∃ o, Means p p.dis o) ∧ ∃ o, Means p p.con o :=
  ⟨means_exists h.2.1 h.2.2, means_exists h.1.1 h.1.2⟩

theorem sound_after {w v : World} {id : Nat} (h : ∀ q, Sound (w.plug q)) (hst : Still w v id)
    (hd : Rng (v.plug id) (v.plug id).dis) (hc : Rng (v.plug id) (v.plug id).con) :
    ∀ q, Sound (v.plug q) := by
  intro q
  by_cases hq : q = id
  · subst hq; exact ⟨⟨hc.1, hc.2⟩, hd.1, hd.2⟩
  · rw [hst.2.2.2.2.2 q hq]; exact h q

/-- A turn keeps the node that belongs to the place, if what is asked is. -/
theorem turn_node {w : World} (busy : Nat → Bool) (a : Option Nat) (node : Nat) (dis con : Option Nat)
    (dir : Option (Option Nat))
    (hg : ∀ s, (asked busy a dis con dir).1 = some s → w.outer s = w.ground)
    (hn : node = nodeOf w a) :
    (turn w.inner w.outer busy ⟨a, node⟩ dis con dir).node
      = nodeOf w (turn w.inner w.outer busy ⟨a, node⟩ dis con dir).at? := by
  have hpull : ∀ (pl : Place) (d : Option Nat), (∀ s, d = some s → w.outer s = w.ground) →
      pl.node = nodeOf w pl.at? → (pull w.outer pl d).node = nodeOf w (pull w.outer pl d).at? := by
    intro pl d hd hpl
    rcases d with _ | s
    · exact hpl
    · show (if pl.at? = none ∨ pl.at? = some s then (⟨none, w.outer s⟩ : Place) else pl).node
        = nodeOf w (if pl.at? = none ∨ pl.at? = some s then (⟨none, w.outer s⟩ : Place) else pl).at?
      split
      · exact hd s rfl
      · exact hpl
  have hput : ∀ (pl : Place) (d : Option Nat), pl.node = nodeOf w pl.at? →
      (put w.inner busy pl d).node = nodeOf w (put w.inner busy pl d).at? := by
    intro pl d hpl
    rcases d with _ | s
    · exact hpl
    · show (if pl.at? = none ∧ busy s = false then (⟨some s, w.inner s⟩ : Place) else pl).node
        = nodeOf w (if pl.at? = none ∧ busy s = false then (⟨some s, w.inner s⟩ : Place) else pl).at?
      split
      · rfl
      · exact hpl
  unfold turn
  exact hput _ _ (hpull _ _ hg hn)

theorem means_listed {w : World} {id : Nat} {i : Int} {s : Nat} (h : Means (w.plug id) i (some s)) :
    Listed w s := ⟨id, List.mem_of_getElem? h.2⟩

/-- What is asked to be pulled is a socket of the list, or the one it is in. -/
theorem asked_listed {w : World} (h : Inv w) {id : Nat} (busy : Nat → Bool) {a dis con : Option Nat}
    {dir : Option (Option Nat)} (ha : In w id a) {i : Int} (hd : Means (w.plug id) i dis) {s : Nat}
    (hs : (asked busy a dis con dir).1 = some s) : Listed w s := by
  have key : (asked busy a dis con dir).1 = dis ∨ (asked busy a dis con dir).1 = a := by
    unfold asked
    rcases dir with _ | t
    · exact Or.inl rfl
    · dsimp only
      by_cases ht : t = a
      · rw [if_pos ht]; exact Or.inl rfl
      · rw [if_neg ht]
        rcases t with _ | t
        · exact Or.inr rfl
        · dsimp only
          split
          · exact Or.inr rfl
          · exact Or.inr rfl
  rcases key with hk | hk
  · rw [hs] at hk
    rw [← hk] at hd
    exact means_listed hd
  · rw [hs] at hk
    rw [← hk] at ha
    exact ⟨id, h.mem s id ha⟩

/-- An update of an end whose turn leaves it with the node that belongs to its place. -/
theorem fit_updatePort' {size : Nat → Nat} {good good' : Nat → Bool → Prop} {w : World}
    (h : Fit size good w) {j : Nat} {k : Bool} {id : Nat} (hp : (w.link j).plug k = some id)
    (hg : ∀ j' k', good' j' k' ↔ good j' k' ∨ (j' = j ∧ k' = k))
    {a dis con : Option Nat} {dir : Option (Option Nat)} (ha : In w id a)
    (hd : Means (w.plug id) (w.plug id).dis dis) (hc : Means (w.plug id) (w.plug id).con con)
    (hr : Directed (w.plug id) dir)
    (hn : (turn w.inner w.outer (busyFor w id) ⟨a, (w.link j).node k⟩ dis con dir).node
      = nodeOf w (turn w.inner w.outer (busyFor w id) ⟨a, (w.link j).node k⟩ dis con dir).at?) :
    Fit size good' (updatePort w j k).1 ∧ (updatePort w j k).2 = false
      ∧ (∀ q, q ≠ id → (updatePort w j k).1.plug q = w.plug q)
      ∧ Same w (updatePort w j k).1 id
      ∧ In (updatePort w j k).1 id
          (turn w.inner w.outer (busyFor w id) ⟨a, (w.link j).node k⟩ dis con dir).at?
      ∧ ∀ j', ((updatePort w j k).1.link j').plug = (w.link j').plug := by
  obtain ⟨u1, u2, u3, u4, u5, u6, u7, u8⟩ := update_spec h.inv id ((w.link j).node k) ha hd hc hr
  obtain ⟨r, hrr⟩ : ∃ r, r = update w id ((w.link j).node k) := ⟨_, rfl⟩
  rw [← hrr] at u1 u2 u3 u4 u5 u6 u7 u8
  have hno : (r.world.plug id).no = (w.plug id).no := by unfold Plug.no; rw [u3.2.2.2.2.1 id]
  have hsd : ∀ q, Sound (r.world.plug q) :=
    sound_after h.sound u3 (by rw [u7, ← hno]; exact rng_no _) (by rw [u8, ← hno]; exact rng_no _)
  obtain ⟨m1, m2⟩ := fit_move h hp hg u2 hsd u3 u4 u5 r.node (u6.trans hn)
  have hup : updatePort w j k
      = if r.node ≠ (w.link j).node k then (setPort r.world j k r.node, false) else (r.world, false) := by
    unfold updatePort
    rw [hp]
    dsimp only
    rw [← hrr, u1, if_neg (by decide)]
  rw [hup]
  by_cases he : r.node = (w.link j).node k
  · rw [if_neg (fun hh => hh he)]
    exact ⟨m2 he, rfl, fun q hq => u3.2.2.2.2.2 q hq, u4, u5, fun j' => by rw [u3.2.2.1]⟩
  · rw [if_pos he]
    obtain ⟨l1, l2, _⟩ := setPort_only r.world j k r.node
    refine ⟨m1, rfl, fun q hq => ?_, fun s q hq => ?_, ?_, fun j' => ?_⟩
    · dsimp only; rw [l1]; exact u3.2.2.2.2.2 q hq
    · dsimp only; rw [l2]; exact u4 s q hq
    · exact (in_congr l2 _).mpr u5
    · dsimp only
      rw [← u3.2.2.1]
      unfold setPort
      dsimp only
      split
      · unfold setLink
        dsimp only
        by_cases hj : j' = j
        · rw [if_pos hj, hj]
        · rw [if_neg hj]
      · rfl

theorem fit_updatePort {size : Nat → Nat} {w : World} (h : Fit size (fun _ _ => True) w) (j : Nat)
    (k : Bool) : Fit size (fun _ _ => True) (updatePort w j k).1 ∧ (updatePort w j k).2 = false := by
  rcases hp : (w.link j).plug k with _ | id
  · have : updatePort w j k = (w, false) := by unfold updatePort; rw [hp]
    rw [this]; exact ⟨h, rfl⟩
  · obtain ⟨a, ha⟩ := in_exists w id
    obtain ⟨⟨dis, hd⟩, ⟨con, hc⟩⟩ := sound_means (h.sound id)
    obtain ⟨dir, hr⟩ := directed_exists (w.plug id)
    have hnode := (right_iff hp).mp (h.right j k trivial) a ha
    have := fit_updatePort' (good' := fun _ _ => True) h hp
      (fun _ _ => ⟨fun _ => Or.inl trivial, fun _ => trivial⟩) ha hd hc hr
      (turn_node _ _ _ _ _ _ (fun s hs => (h.gr s (asked_listed h.inv _ ha hd hs)).1) hnode)
    exact ⟨this.1, this.2.1⟩

theorem fit_updatePlugs {size : Nat → Nat} {w : World} (h : Fit size (fun _ _ => True) w) (j : Nat) :
    Fit size (fun _ _ => True) (updatePlugs w j).1 ∧ (updatePlugs w j).2 = false := by
  obtain ⟨a1, a2⟩ := fit_updatePort h j false
  unfold updatePlugs
  dsimp only
  rw [a2, if_neg (by decide)]
  exact fit_updatePort a1 j true

/-- Changing the requests of a plug. -/
theorem fit_setPlug {size : Nat → Nat} {good : Nat → Bool → Prop} {w : World} (h : Fit size good w)
    (id : Nat) (p : Plug) (h1 : p.sockets = (w.plug id).sockets) (h2 : p.active = (w.plug id).active)
    (h3 : p.last = (w.plug id).last) (h4 : Sound p) : Fit size good (setPlug w id p) := by
  have hno : p.no = (w.plug id).no := by unfold Plug.no; rw [h1]
  have hst := still_setPlug w id p h1
  have hlist : ∀ s, Listed (setPlug w id p) s → Listed w s := by
    rintro s ⟨q, hq⟩
    exact ⟨q, by rw [← hst.2.2.2.2.1]; exact hq⟩
  refine ⟨Pre.setPlug h.inv id p h1 h2 (by rw [h3, hno]; exact h.inv.last id),
    fun q => by rw [hst.2.2.2.2.1 q]; exact h.len q, fun q => ?_,
    fun s hs => ⟨(h.gr s (hlist s hs)).1, (h.gr s (hlist s hs)).2.1,
      fun t ht => (h.gr s (hlist s hs)).2.2 t (hlist t ht)⟩,
    h.one, fun j k hq s hs => h.apart j k hq s (hlist s hs), h.free, h.right, h.lost⟩
  by_cases hq : q = id
  · subst hq; rw [setPlug_same]; exact h4
  · rw [setPlug_other _ _ hq]; exact h.sound q

theorem fit_restartPort {size : Nat → Nat} {good : Nat → Bool → Prop} {w : World} (h : Fit size good w)
    (j : Nat) (k : Bool) : Fit size good (restartPort w j k) := by
  unfold restartPort
  rcases (w.link j).plug k with _ | id
  · exact h
  · dsimp only
    have ha := act_rng h.inv id
    have hl := h.inv.last id
    split
    · exact fit_setPlug h id _ rfl rfl rfl ⟨⟨ha.1, ha.2⟩, ha.1, ha.2⟩
    · exact fit_setPlug h id _ rfl rfl rfl ⟨rng_no (w.plug id), hl.1, hl.2⟩

theorem fit_initPort {size : Nat → Nat} {w : World} (h : Fit size (fun _ _ => True) w) (j : Nat)
    (k : Bool) (i : Int) : Fit size (fun _ _ => True) (initPort w j k i).1 := by
  rcases hp : (w.link j).plug k with _ | id
  · have : initPort w j k i = (w, false) := by unfold initPort; rw [hp]
    rw [this]; exact h
  · obtain ⟨node, hnode⟩ : ∃ n, n = (w.link j).node k := ⟨_, rfl⟩
    have hinit : initPort w j k i
        = if (initPlug w id node i).threw = true then ((initPlug w id node i).world, true)
          else (setPort (initPlug w id node i).world j k (initPlug w id node i).node, false) := by
      unfold initPort; rw [hp, hnode]
    rw [hinit]
    -- the plug
    have h1 : Fit size (fun _ _ => True) (setPlug w id
        { w.plug id with
          direct := -99
          disable := false }) := fit_setPlug h id _ rfl rfl rfl (h.sound id)
    by_cases hi : i < 0 ∨ i > (w.plug id).no
    · have : initPlug w id node i = ⟨setPlug w id
          { w.plug id with
            direct := -99
            disable := false }, node, true⟩ := by
        unfold initPlug; dsimp only; rw [if_pos hi]
      rw [this, if_pos rfl]; exact h1
    · obtain ⟨w1, hw1⟩ : ∃ w1, w1 = setPlug w id
        { w.plug id with
          direct := -99
          disable := false } := ⟨_, rfl⟩
      rw [← hw1] at h1
      have hno1 : (w1.plug id).no = (w.plug id).no := by rw [hw1, setPlug_same]; rfl
      have hir : Rng (w1.plug id) i := by rw [not_or] at hi; unfold Rng; rw [hno1]; omega
      have h2 : Fit size (fun _ _ => True) (setPlug w1 id
          { w1.plug id with
            con := i }) :=
        fit_setPlug h1 id _ rfl rfl rfl ⟨⟨hir.1, hir.2⟩, (h1.sound id).2⟩
      obtain ⟨w2, hw2⟩ : ∃ w2, w2 = setPlug w1 id
        { w1.plug id with
          con := i } := ⟨_, rfl⟩
      rw [← hw2] at h2
      have hp2 : (w2.link j).plug k = some id := by rw [hw2, hw1]; exact hp
      have hnode2 : node = (w2.link j).node k := by rw [hw2, hw1]; exact hnode
      obtain ⟨a, ha⟩ := in_exists w2 id
      obtain ⟨_, ⟨con, hc⟩⟩ := sound_means (h2.sound id)
      have hna := (right_iff hp2).mp (h2.right j k trivial) a ha
      rw [← hnode2] at hna
      obtain ⟨c1, c2, c3, c4, c5, c6, c7, c8⟩ := con_spec h2.inv id node ha hc
      obtain ⟨b, hb⟩ : ∃ b, b = processCon w2 id node := ⟨_, rfl⟩
      rw [← hb] at c1 c2 c3 c4 c5 c6 c7 c8
      obtain ⟨v, hv⟩ : ∃ v, v = updateActive b.world id := ⟨_, rfl⟩
      rw [← hv] at c2 c3 c4 c5 c7 c8
      have hinp : initPlug w id node i
          = if (v.plug id).active ≠ i then ⟨v, b.node, true⟩ else ⟨v, b.node, false⟩ := by
        unfold initPlug
        dsimp only
        rw [if_neg hi, ← hw1, ← hw2, ← hb, c1, if_neg (by decide), ← hv]
      have hnov : (v.plug id).no = (w2.plug id).no := by unfold Plug.no; rw [c3.2.2.2.2.1 id]
      have hsd : ∀ q, Sound (v.plug q) := by
        refine sound_after h2.sound c3 ?_ ?_
        · rw [c7]
          unfold Rng; rw [hnov]
          exact ⟨(h2.sound id).2.1, (h2.sound id).2.2⟩
        · rw [c8, ← hnov]; exact rng_no _
      have hpn : (put w2.inner (busyFor w2 id) ⟨a, node⟩ con).node
          = nodeOf w2 (put w2.inner (busyFor w2 id) ⟨a, node⟩ con).at? := by
        have ht := turn_node (w := w2) (busyFor w2 id) a node none con none (fun s hs => (by cases hs)) hna
        exact ht
      obtain ⟨m1, m2⟩ := fit_move (good' := fun _ _ => True) h2 hp2
        (fun _ _ => ⟨fun _ => Or.inl trivial, fun _ => trivial⟩) c2 hsd c3 c4 c5 b.node (c6.trans hpn)
      rw [hinp]
      by_cases hact : (v.plug id).active = i
      · rw [if_neg (fun hh : (v.plug id).active ≠ i => hh hact), if_neg Bool.false_ne_true]
        exact m1
      · rw [if_pos (show (v.plug id).active ≠ i from hact), if_pos rfl]
        refine m2 ?_
        rw [← hnode2, c6]
        -- the place did not change, or the active connection would be the one asked for
        rcases con with _ | s
        · rfl
        · show (if a = none ∧ busyFor w2 id s = false then (⟨some s, w2.inner s⟩ : Place)
            else ⟨a, node⟩).node = node
          by_cases hcase : a = none ∧ busyFor w2 id s = false
          · exfalso
            have c5' : In v id (if a = none ∧ busyFor w2 id s = false then (⟨some s, w2.inner s⟩ : Place)
              else ⟨a, node⟩).at? := c5
            rw [if_pos hcase] at c5'
            have hm := (in_iff c2 (fun hf => hf) _).mp c5'
            have hcon : (w2.plug id).con = i := by rw [hw2, setPlug_same]
            rw [hcon] at hc
            have hc' : Means (v.plug id) i (some s) := by
              refine ⟨hc.1, ?_⟩
              rw [c3.2.2.2.2.1 id]; exact hc.2
            exact hact (means_inj (c2.nodup id) hm hc')
          · rw [if_neg hcase]

theorem fit_happen {size : Nat → Nat} {w : World} (h : Fit size (fun _ _ => True) w) {e : Ev}
    (he : Plain size e) : Fit size (fun _ _ => True) (happen w e) := by
  cases e with
  | start j a b =>
    show Fit _ _ (initJumper w j a b).1
    unfold initJumper
    dsimp only
    split
    · exact fit_initPort h j false a
    · exact fit_initPort (fit_initPort h j false a) j true b
  | request id con dis direct disable =>
    refine fit_setPlug h id _ rfl rfl rfl ?_
    obtain ⟨⟨a1, a2⟩, a3, a4⟩ := he
    have hl := h.len id
    refine ⟨⟨a1, ?_⟩, a3, ?_⟩
    · dsimp only; rw [hl]; exact a2
    · dsimp only; rw [hl]; exact a4
  | step j => exact (fit_updatePlugs h j).1
  | restart j => exact (fit_updatePlugs (fit_restartPort (fit_restartPort h j false) j true) j).1
  | movePort j k n => exact he.elim
  | lock j b => exact he.elim
  | moveSocket s a b => exact he.elim

theorem fit_happens {size : Nat → Nat} {w : World} (h : Fit size (fun _ _ => True) w) (es : List Ev)
    (he : ∀ e ∈ es, Plain size e) : Fit size (fun _ _ => True) (happens w es) := by
  unfold happens
  induction es generalizing w with
  | nil => exact h
  | cons e es ih =>
    exact ih (fit_happen h (he e List.mem_cons_self)) (fun x hx => he x (List.mem_cons_of_mem _ hx))

/-! ## Restarting -/

/-- The requests of a plug after a restart. -/
def Redo (w : World) (id : Nat) : Prop :=
  ((w.plug id).active ≠ (w.plug id).no ∧ (w.plug id).dis = (w.plug id).active
      ∧ (w.plug id).con = (w.plug id).active)
    ∨ ((w.plug id).active = (w.plug id).no ∧ (w.plug id).dis = (w.plug id).last
      ∧ (w.plug id).con = (w.plug id).no)

/-- A plug that is not told to be elsewhere. -/
def Content (w : World) (id : Nat) : Prop :=
  (w.plug id).disable = true ∨ (w.plug id).direct < 0 ∨ (w.plug id).no < (w.plug id).direct
    ∨ (w.plug id).direct = (w.plug id).active

theorem content_directed {w : World} (h : Inv w) {id : Nat} (hc : Content w id) {a : Option Nat}
    (ha : In w id a) : Directed (w.plug id) none ∨ Directed (w.plug id) (some a) := by
  by_cases hb : (w.plug id).disable = true
  · exact Or.inl (Or.inl hb)
  · rcases hc with hc | hc | hc | hc
    · exact absurd hc hb
    · exact Or.inl (Or.inr (Or.inl hc))
    · exact Or.inl (Or.inr (Or.inr hc))
    · right
      refine ⟨by simpa using hb, ?_⟩
      rw [hc]
      exact (in_iff h (fun hf => hf) a).mp ha

theorem settled_content {w : World} (h : Inv w) {id : Nat} (hs : Settled w id) : Content w id := by
  rcases hs with hs | ⟨o, ho, hd⟩
  · rcases hs with hs | hs | hs
    · exact Or.inl hs
    · exact Or.inr (Or.inl hs)
    · exact Or.inr (Or.inr (Or.inl hs))
  · have hact := (in_iff h (fun hf => hf) o).mp ho
    exact Or.inr (Or.inr (Or.inr (means_inj (h.nodup id) hd.2 hact)))

theorem asked_content (busy : Nat → Bool) (a dis con : Option Nat) (dir : Option (Option Nat))
    (h : dir = none ∨ dir = some a) : asked busy a dis con dir = (dis, con) := by
  rcases h with h | h
  · rw [h]; rfl
  · rw [h]; simp [asked]

/-- The turn of a plug after a restart. -/
theorem redo_turn {w : World} (h : Inv w) {id : Nat} (hr : Redo w id) (hc : Content w id)
    {a : Option Nat} (ha : In w id a) : ∃ dis con dir, Means (w.plug id) (w.plug id).dis dis
      ∧ Means (w.plug id) (w.plug id).con con ∧ Directed (w.plug id) dir
      ∧ ∀ node, (turn w.inner w.outer (busyFor w id) ⟨a, node⟩ dis con dir).at? = a
          ∧ ((∃ s, a = some s) →
              (turn w.inner w.outer (busyFor w id) ⟨a, node⟩ dis con dir).node = nodeOf w a)
          ∧ (a = none → (∀ s, Listed w s → w.outer s = w.ground) → node = w.ground →
              (turn w.inner w.outer (busyFor w id) ⟨a, node⟩ dis con dir).node = nodeOf w a) := by
  have hact := (in_iff h (fun hf => hf) a).mp ha
  have hdir : ∃ dir, Directed (w.plug id) dir ∧ (dir = none ∨ dir = some a) := by
    rcases content_directed h hc ha with hd | hd
    · exact ⟨none, hd, Or.inl rfl⟩
    · exact ⟨some a, hd, Or.inr rfl⟩
  obtain ⟨dir, hd, hda⟩ := hdir
  rcases hr with ⟨r1, r2, r3⟩ | ⟨r1, r2, r3⟩
  · rcases a with _ | s
    · exact absurd hact r1
    · refine ⟨some s, some s, dir, by rw [r2]; exact hact, by rw [r3]; exact hact, hd, fun node => ?_⟩
      have hb : busyFor w id s = false := by
        unfold busyFor
        rw [show w.sock s = some id from ha]
        simp
      have ht : turn w.inner w.outer (busyFor w id) ⟨some s, node⟩ (some s) (some s) dir
          = ⟨some s, w.inner s⟩ := by
        unfold turn
        rw [asked_content _ _ _ _ _ hda]
        simp [pull, put, hb]
      rw [ht]
      exact ⟨rfl, fun _ => rfl, fun hf => (by cases hf)⟩
  · have ha0 : a = none := means_unique hact (show (w.plug id).active = _ from r1)
    subst ha0
    obtain ⟨dis, hdis⟩ := means_exists (p := w.plug id) (h.last id).1 (h.last id).2
    refine ⟨dis, none, dir, by rw [r2]; exact hdis, r3, hd, fun node => ?_⟩
    have ht : turn w.inner w.outer (busyFor w id) ⟨none, node⟩ dis none dir
        = pull w.outer ⟨none, node⟩ dis := by
      unfold turn
      rw [asked_content _ _ _ _ _ hda]
      rfl
    rw [ht]
    rcases dis with _ | s
    · refine ⟨rfl, ?_, fun _ _ hn => hn⟩
      rintro ⟨t, hf⟩
      cases hf
    · have hp : pull w.outer ⟨none, node⟩ (some s) = ⟨none, w.outer s⟩ := by simp [pull]
      rw [hp]
      refine ⟨rfl, ?_, fun _ hn _ => hn s (means_listed hdis)⟩
      rintro ⟨t, hf⟩
      cases hf

theorem sock_same {w v : World} {id : Nat} (h : Same w v id) {a : Option Nat} (hi : Inv w) (hv : Inv v)
    (ha : In w id a) (hb : In v id a) : v.sock = w.sock := by
  funext s
  apply Option.ext
  intro q
  by_cases hq : q = id
  · subst hq
    constructor
    · intro hs
      have he : a = some s := in_unique hv hb hs
      subst he
      exact ha
    · intro hs
      have he : a = some s := in_unique hi ha hs
      subst he
      exact hb
  · exact h s q hq

/-- Updating one end after a restart leaves all plugs where they are. -/
theorem redo_port {w : World} (h : Inv w) (j : Nat) (k : Bool)
    (hr : ∀ id, (w.link j).plug k = some id → Redo w id ∧ Content w id) :
    (updatePort w j k).2 = false ∧ (updatePort w j k).1.sock = w.sock
      ∧ (∀ id, (w.link j).plug k ≠ some id → (updatePort w j k).1.plug id = w.plug id)
      ∧ (∀ id, (w.link j).plug k = some id →
          ((updatePort w j k).1.plug id).con = (w.plug id).no
            ∧ ((updatePort w j k).1.plug id).dis = (w.plug id).no)
      ∧ ∀ j', ((updatePort w j k).1.link j').plug = (w.link j').plug := by
  rcases hp : (w.link j).plug k with _ | id
  · have : updatePort w j k = (w, false) := by unfold updatePort; rw [hp]
    rw [this]
    exact ⟨rfl, rfl, fun _ _ => rfl, fun _ hf => (by cases hf), fun _ => rfl⟩
  · obtain ⟨a, ha⟩ := in_exists w id
    obtain ⟨hr1, hr2⟩ := hr id hp
    obtain ⟨dis, con, dir, hd, hc, hdd, ht⟩ := redo_turn h hr1 hr2 ha
    obtain ⟨u1, u2, u3, u4, u5, u6, u7, u8⟩ := update_spec h id ((w.link j).node k) ha hd hc hdd
    obtain ⟨r, hrr⟩ : ∃ r, r = update w id ((w.link j).node k) := ⟨_, rfl⟩
    rw [← hrr] at u1 u2 u3 u4 u5 u6 u7 u8
    rw [(ht _).1] at u5
    have hss := sock_same u4 h u2 ha u5
    have hup : updatePort w j k
        = if r.node ≠ (w.link j).node k then (setPort r.world j k r.node, false)
          else (r.world, false) := by
      unfold updatePort
      rw [hp]
      dsimp only
      rw [← hrr, u1, if_neg (by decide)]
    rw [hup]
    by_cases he : r.node = (w.link j).node k
    · rw [if_neg (fun hh => hh he)]
      refine ⟨rfl, hss, fun q hq => u3.2.2.2.2.2 q (fun hh => hq (by rw [hh])), fun q hq => ?_,
        fun j' => by rw [u3.2.2.1]⟩
      obtain rfl := Option.some.inj hq
      exact ⟨u8, u7⟩
    · rw [if_pos he]
      obtain ⟨l1, l2, _⟩ := setPort_only r.world j k r.node
      refine ⟨rfl, l2.trans hss, fun q hq => ?_, fun q hq => ?_, fun j' => ?_⟩
      · dsimp only; rw [l1]; exact u3.2.2.2.2.2 q (fun hh => hq (by rw [hh]))
      · obtain rfl := Option.some.inj hq
        dsimp only
        rw [l1]
        exact ⟨u8, u7⟩
      · dsimp only
        rw [← u3.2.2.1]
        unfold setPort
        dsimp only
        split
        · unfold setLink
          dsimp only
          by_cases hj : j' = j
          · rw [if_pos hj, hj]
          · rw [if_neg hj]
        · rfl

theorem restartPort_redo (w : World) (j : Nat) (k : Bool) {id : Nat}
    (hp : (w.link j).plug k = some id) : Redo (restartPort w j k) id := by
  unfold restartPort
  rw [hp]
  dsimp only
  by_cases h : (w.plug id).no ≠ (w.plug id).active
  · rw [if_pos h]
    left
    rw [setPlug_same]
    exact ⟨fun hh => h hh.symm, rfl, rfl⟩
  · rw [if_neg h]
    right
    rw [setPlug_same]
    exact ⟨(not_not.mp h).symm, rfl, rfl⟩

theorem restartPort_other (w : World) (j : Nat) (k : Bool) :
    (restartPort w j k).sock = w.sock ∧ (restartPort w j k).link = w.link
      ∧ (∀ id, (w.link j).plug k ≠ some id → (restartPort w j k).plug id = w.plug id)
      ∧ ∀ id, Content w id → Content (restartPort w j k) id := by
  unfold restartPort
  rcases hp : (w.link j).plug k with _ | id
  · exact ⟨rfl, rfl, fun _ _ => rfl, fun _ h => h⟩
  · dsimp only
    have key : ∀ p : Plug, p.disable = (w.plug id).disable → p.direct = (w.plug id).direct →
        p.active = (w.plug id).active → p.sockets = (w.plug id).sockets →
        ∀ q, Content w q → Content (setPlug w id p) q := by
      intro p h1 h2 h3 h4 q hq
      by_cases hqi : q = id
      · subst hqi
        unfold Content Plug.no at *
        rw [setPlug_same, h1, h2, h3, h4]
        exact hq
      · unfold Content
        rw [setPlug_other _ _ hqi]
        exact hq
    split
    · exact ⟨rfl, rfl, fun q hq => setPlug_other _ _ (fun hh => hq (by rw [hh])),
        key _ rfl rfl rfl rfl⟩
    · exact ⟨rfl, rfl, fun q hq => setPlug_other _ _ (fun hh => hq (by rw [hh])),
        key _ rfl rfl rfl rfl⟩

theorem redo_congr {w v : World} {id : Nat} (h : v.plug id = w.plug id) (hr : Redo w id) : Redo v id := by
  unfold Redo; rw [h]; exact hr

theorem content_congr {w v : World} {id : Nat} (h : v.plug id = w.plug id) (hr : Content w id) :
    Content v id := by
  unfold Content; rw [h]; exact hr

/-- The two requests of a restart. -/
theorem restart_start {w : World} (h : Inv w) (j : Nat)
    (h2 : ∀ id, (w.link j).plug false = some id → (w.link j).plug true ≠ some id)
    (hc : ∀ k id, (w.link j).plug k = some id → Content w id) :
    ∃ v, v = restartPort (restartPort w j false) j true ∧ Inv v ∧ v.sock = w.sock ∧ v.link = w.link
      ∧ ∀ k id, (w.link j).plug k = some id → Redo v id ∧ Content v id := by
  obtain ⟨a1, a2, a3, a4⟩ := restartPort_other w j false
  obtain ⟨b1, b2, b3, b4⟩ := restartPort_other (restartPort w j false) j true
  refine ⟨_, rfl, restartPort_inv (restartPort_inv h j false) j true, b1.trans a1, b2.trans a2, ?_⟩
  rw [a2] at b3
  intro k id hk
  refine ⟨?_, b4 _ (a4 _ (hc k id hk))⟩
  cases k with
  | false => exact redo_congr (b3 id (h2 id hk)) (restartPort_redo w j false hk)
  | true => exact restartPort_redo (restartPort w j false) j true (by rw [a2]; exact hk)

theorem restart_keeps {w : World} (h : Inv w) (j : Nat)
    (h2 : ∀ id, (w.link j).plug false = some id → (w.link j).plug true ≠ some id)
    (hc : ∀ k id, (w.link j).plug k = some id → Content w id) :
    (restart w j).2 = false ∧ (restart w j).1.sock = w.sock := by
  obtain ⟨v, hv, v1, v2, v3, v4⟩ := restart_start h j h2 hc
  unfold restart
  rw [← hv]
  unfold updatePlugs
  dsimp only
  obtain ⟨a1, a2, a3, _, a5⟩ := redo_port v1 j false (fun id hid => v4 false id (by rw [← v3]; exact hid))
  rw [a1, if_neg (by decide)]
  obtain ⟨b1, b2, _⟩ := redo_port (updatePort_inv v1 j false) j true (fun id hid => by
    rw [a5 j, v3] at hid
    have hne : (v.link j).plug false ≠ some id := by
      rw [v3]; intro hh; exact h2 id hh hid
    obtain ⟨c1, c2⟩ := v4 true id hid
    exact ⟨redo_congr (a3 id hne) c1, content_congr (a3 id hne) c2⟩)
  exact ⟨b1, b2.trans (a2.trans v2)⟩

/-- Updating one end after a restart puts it where its plug is. -/
theorem redo_fit {size : Nat → Nat} {good : Nat → Bool → Prop} {w : World} (h : Fit size good w)
    (j : Nat) (k : Bool) (hgk : ¬ good j k)
    (hr : ∀ id, (w.link j).plug k = some id → Redo w id ∧ Content w id) :
    Fit size (fun j' k' => good j' k' ∨ (j' = j ∧ k' = k)) (updatePort w j k).1 := by
  rcases hp : (w.link j).plug k with _ | id
  · have : updatePort w j k = (w, false) := by unfold updatePort; rw [hp]
    rw [this]
    refine ⟨h.inv, h.len, h.sound, h.gr, h.one, h.apart, h.free, fun j' k' hg => ?_,
      fun j' k' id hn hq => h.lost j' k' id (fun hh => hn (Or.inl hh)) hq⟩
    rcases hg with hg | hg
    · exact h.right j' k' hg
    · intro q hq
      rw [hg.1, hg.2, hp] at hq; cases hq
  · obtain ⟨a, ha⟩ := in_exists w id
    obtain ⟨hr1, hr2⟩ := hr id hp
    obtain ⟨dis, con, dir, hd, hc, hdd, ht⟩ := redo_turn h.inv hr1 hr2 ha
    have hg := h.lost j k id hgk hp
    refine (fit_updatePort' h hp (fun _ _ => Iff.rfl) ha hd hc hdd ?_).1
    rw [(ht _).1]
    rcases ha' : a with _ | s
    · have := (ht ((w.link j).node k)).2.2 ha' (fun s hs => (h.gr s hs).1) hg
      rw [ha'] at this
      exact this
    · have := (ht ((w.link j).node k)).2.1 ⟨s, ha'⟩
      rw [ha'] at this
      exact this

theorem restart_fit {size : Nat → Nat} {w : World} (h : Fit size (fun _ _ => False) w) (j : Nat)
    (hc : ∀ k id, (w.link j).plug k = some id → Content w id) (k : Bool) :
    RightEnd (restart w j).1 j k := by
  have h2 : ∀ id, (w.link j).plug false = some id → (w.link j).plug true ≠ some id := by
    intro id h1 h2
    have := (h.one j j false true id h1 h2).2
    cases this
  obtain ⟨v, hv, v1, v2, v3, v4⟩ := restart_start h.inv j h2 hc
  have hfv : Fit size (fun _ _ => False) v := by
    rw [hv]; exact fit_restartPort (fit_restartPort h j false) j true
  obtain ⟨a1, a2, a3, _, a5⟩ := redo_port v1 j false (fun id hid => v4 false id (by rw [← v3]; exact hid))
  have f1 := redo_fit hfv j false (fun hf => hf) (fun id hid => v4 false id (by rw [← v3]; exact hid))
  have f2 := redo_fit f1 j true (fun hf => by
    rcases hf with hf | hf
    · exact hf
    · cases hf.2) (fun id hid => by
    rw [a5 j, v3] at hid
    have hne : (v.link j).plug false ≠ some id := by
      rw [v3]; intro hh; exact h2 id hh hid
    obtain ⟨c1, c2⟩ := v4 true id hid
    exact ⟨redo_congr (a3 id hne) c1, content_congr (a3 id hne) c2⟩)
  have hre : (restart w j).1 = (updatePort (updatePort v j false).1 j true).1 := by
    unfold restart
    rw [← hv]
    unfold updatePlugs
    dsimp only
    rw [a1, if_neg (by decide)]
  rw [hre]
  refine f2.right j k ?_
  cases k with
  | false => exact Or.inl (Or.inr ⟨rfl, rfl⟩)
  | true => exact Or.inr ⟨rfl, rfl⟩

/-! ## Idle plugs -/

theorem setPlug_self (w : World) (id : Nat) : setPlug w id (w.plug id) = w := by
  unfold setPlug
  have : (fun k => if k = id then w.plug id else w.plug k) = w.plug := by
    funext k
    by_cases hk : k = id
    · rw [if_pos hk, hk]
    · rw [if_neg hk]
  rw [this]

theorem updateActive_self {w : World} (h : Inv w) (id : Nat) : updateActive w id = w := by
  unfold updateActive
  have : (({ w.plug id with
      active := (((w.plug id).sockets.findIdx (fun s => decide (w.sock s = some id)) : Nat) : Int) }) : Plug)
      = w.plug id := by
    have ha := h.act id (fun hf => hf)
    unfold idx at ha
    rw [← ha]
  dsimp only
  rw [this, setPlug_self]

/-- A plug with no requests and no direct request in force changes nothing. -/
theorem idle_update {w : World} (h : Inv w) (id node : Nat) (hb : (w.plug id).disable = false)
    (hd : (w.plug id).direct < 0 ∨ (w.plug id).no < (w.plug id).direct
      ∨ (w.plug id).direct = (w.plug id).active)
    (h1 : (w.plug id).con = (w.plug id).no) (h2 : (w.plug id).dis = (w.plug id).no) :
    update w id node = ⟨w, node, false⟩ := by
  have e1 : processDirect w id = w := by
    unfold processDirect
    dsimp only
    have hb' : ¬ (w.plug id).disable = true := by rw [hb]; decide
    rw [if_neg hb', if_neg, setPlug_self]
    rintro ⟨c1, c2, c3⟩
    rcases hd with hd | hd | hd
    · omega
    · omega
    · exact c3 hd
  have e2 : processDis w id node = ⟨w, node, false⟩ := by
    unfold processDis
    dsimp only
    rw [if_neg (fun hh => hh h2.symm)]
    have : (({ w.plug id with
        dis := (w.plug id).no }) : Plug) = w.plug id := by rw [← h2]
    rw [this, setPlug_self]
  have e3 : processCon w id node = ⟨w, node, false⟩ := by
    unfold processCon
    dsimp only
    rw [if_neg (fun hh => hh h1.symm)]
    have : (({ w.plug id with
        con := (w.plug id).no }) : Plug) = w.plug id := by rw [← h1]
    rw [this, setPlug_self]
  unfold update
  rw [e1, e2]
  dsimp only
  rw [if_neg (by decide), updateActive_self h, e3]
  dsimp only
  rw [if_neg (by decide), updateActive_self h]

theorem idle_step {w : World} (h : Inv w) (j : Nat)
    (hid : ∀ k id, (w.link j).plug k = some id → (w.plug id).disable = false
      ∧ ((w.plug id).direct < 0 ∨ (w.plug id).no < (w.plug id).direct
        ∨ (w.plug id).direct = (w.plug id).active)
      ∧ (w.plug id).con = (w.plug id).no ∧ (w.plug id).dis = (w.plug id).no) :
    updatePlugs w j = (w, false) := by
  have hport : ∀ k, updatePort w j k = (w, false) := by
    intro k
    unfold updatePort
    rcases hp : (w.link j).plug k with _ | id
    · rfl
    · obtain ⟨a1, a2, a3, a4⟩ := hid k id hp
      dsimp only
      rw [idle_update h id _ a1 a2 a3 a4]
      dsimp only
      rw [if_neg (by decide), if_neg (fun hh => hh rfl)]
  unfold updatePlugs
  dsimp only
  rw [hport false]
  dsimp only
  rw [if_neg (by decide), hport true]

end Gunns.Plugs
