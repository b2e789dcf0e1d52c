import Verif.Plugs.Port
import Mathlib.Tactic.Tauto

/-!
# When the update of a plug throws
-/

namespace Gunns.Plugs

open Gunns.Plugs.Spec

theorem direct_none {w : World} {id : Nat} (h : Directed (w.plug id) none) :
    ∃ d : Int, ((w.plug id).disable = true ∨ d < 0 ∨ (w.plug id).no < d)
      ∧ processDirect w id = setPlug w id
        { w.plug id with
          direct := d } := by
  unfold processDirect
  dsimp only
  by_cases hb : (w.plug id).disable = true
  · refine ⟨-99, Or.inl hb, ?_⟩
    rw [if_pos hb, if_neg]
    intro hh
    exact absurd (show (-99 : Int) ≥ 0 from hh.1) (by decide)
  · have hr : (w.plug id).direct < 0 ∨ (w.plug id).no < (w.plug id).direct := by
      rcases h with hr | hr | hr
      · exact absurd hr hb
      · exact Or.inl hr
      · exact Or.inr hr
    refine ⟨(w.plug id).direct, Or.inr hr, ?_⟩
    rw [if_neg hb, if_neg]
    rintro ⟨h1, h2, _⟩
    omega

theorem dis_oor {w : World} (h : Inv w) (id node : Nat) (hr : ¬ Rng (w.plug id) (w.plug id).dis)
    (ha : (w.plug id).active ≠ (w.plug id).no) : (processDis w id node).world.sock = w.sock := by
  have hno : (w.plug id).no ≠ (w.plug id).dis := by
    intro he; rw [← he] at hr; exact hr (rng_no _)
  have hact : (w.plug id).active ≠ (w.plug id).dis := by
    intro he; rw [← he] at hr; exact hr (act_rng h id)
  unfold processDis
  dsimp only
  rw [if_pos hno, if_pos ⟨hact, ha⟩]
  rfl

/-- Without a direct request, when the update throws, and what it leaves. -/
theorem throw_iff {w : World} (h : Inv w) (id node : Nat) (hd : Directed (w.plug id) none) :
    ((update w id node).threw = true
      ↔ ((w.plug id).active = (w.plug id).no
            ∧ (¬ Rng (w.plug id) (w.plug id).dis ∨ ¬ Rng (w.plug id) (w.plug id).con))
        ∨ (¬ Rng (w.plug id) (w.plug id).con ∧ (w.plug id).dis = (w.plug id).active))
      ∧ ((update w id node).threw = true →
          Directed ((update w id node).world.plug id) none
            ∧ ((update w id node).world.plug id).active = ((update w id node).world.plug id).no
            ∧ (¬ Rng ((update w id node).world.plug id) ((update w id node).world.plug id).dis
              ∨ ¬ Rng ((update w id node).world.plug id) ((update w id node).world.plug id).con)) := by
  obtain ⟨d, hd1, hd2⟩ := direct_none hd
  obtain ⟨u, hu⟩ : ∃ u, u = processDirect w id := ⟨_, rfl⟩
  have hui : Inv u := by rw [hu]; exact (direct_inv h id).1
  have hup : u.plug id =
      { w.plug id with
        direct := d } := by rw [hu, hd2, setPlug_same]
  have hus : u.sock = w.sock := by rw [hu, hd2]; rfl
  have f1 : (u.plug id).active = (w.plug id).active := by rw [hup]
  have f2 : (u.plug id).no = (w.plug id).no := by rw [hup]; rfl
  have f3 : (u.plug id).con = (w.plug id).con := by rw [hup]
  have f4 : (u.plug id).dis = (w.plug id).dis := by rw [hup]
  have f5 : ∀ i, Rng (u.plug id) i ↔ Rng (w.plug id) i := by intro i; unfold Rng; rw [f2]
  have hdu : Directed (u.plug id) none := by
    rw [hup]
    rcases hd1 with hx | hx | hx
    · exact Or.inl hx
    · exact Or.inr (Or.inl hx)
    · exact Or.inr (Or.inr hx)
  have hdt := dis_threw hui id node
  rw [f1, f2, f4, f5] at hdt
  obtain ⟨x, hx⟩ : ∃ x, x = processDis u id node := ⟨_, rfl⟩
  obtain ⟨v, hv⟩ : ∃ v, v = updateActive x.world id := ⟨_, rfl⟩
  obtain ⟨y, hy⟩ : ∃ y, y = processCon v id x.node := ⟨_, rfl⟩
  have hupd : update w id node
      = if x.threw = true then x else if y.threw = true then y
        else ⟨updateActive y.world id, y.node, false⟩ := by
    unfold update
    dsimp only
    rw [← hu, ← hx, ← hv, ← hy]
  rw [← hx] at hdt
  rcases ht : x.threw
  · rw [ht] at hupd hdt
    rw [if_neg Bool.false_ne_true] at hupd
    have hdn : ¬ (¬ Rng (w.plug id) (w.plug id).dis ∧ (w.plug id).active = (w.plug id).no) :=
      fun hh => Bool.false_ne_true (hdt.mpr hh)
    have hvi := dis_inv hui id node (by rw [← hx]; exact ht)
    rw [← hx, ← hv] at hvi
    obtain ⟨v1, v2, _, v4, v5⟩ := hvi
    have hnov : (v.plug id).no = (w.plug id).no := by
      unfold Plug.no
      rw [v2.2.2.2.2.1 id]
      exact f2
    have hvd : Directed (v.plug id) none := by
      have e1 : (v.plug id).direct = (u.plug id).direct ∧ (v.plug id).disable = (u.plug id).disable := by
        rw [hv, hx]
        have a1 := updateActive_direct (processDis u id node).world id
        have a2 := processDis_direct u id node
        exact ⟨a1.1.trans a2.1, a1.2.trans a2.2⟩
      show (v.plug id).disable = true ∨ _
      rw [e1.1, e1.2, v2.2.2.2.2.1 id]
      exact hdu
    have hct := con_threw v1 id x.node
    have hvr : ∀ i, Rng (v.plug id) i ↔ Rng (w.plug id) i := by intro i; unfold Rng; rw [hnov]
    rw [v5, f3, hvr, ← hy] at hct
    -- whether it is out after the first phase
    have hout : (v.plug id).active = (v.plug id).no
        ↔ (w.plug id).active = (w.plug id).no ∨ (w.plug id).dis = (w.plug id).active := by
      have hiff : (v.plug id).active = (v.plug id).no ↔ In v id none :=
        (in_iff v1 (fun hf => hf) none).symm
      rw [hiff]
      obtain ⟨a, ha⟩ := in_exists w id
      have hact := (in_iff h (fun hf => hf) a).mp ha
      by_cases hr : Rng (w.plug id) (w.plug id).dis
      · obtain ⟨dis, hdis⟩ := rng_iff.mp hr
        have hdis' : Means (u.plug id) (u.plug id).dis dis := by
          rw [hup]
          rcases dis with _ | s
          · exact hdis
          · exact hdis
        have hs := dis_spec hui id node ((in_congr hus a).mpr ha) hdis'
        rw [← hx, ← hv] at hs
        have h5 := hs.2.2.2.2.1
        constructor
        · intro hn
          have he := in_unique v1 h5 hn
          rcases dis with _ | s
          · have ha0 : a = none := he
            subst ha0
            exact Or.inl hact
          · by_cases hc : a = none ∨ a = some s
            · rcases hc with hc | hc
              · subst hc; exact Or.inl hact
              · subst hc
                exact Or.inr (means_inj (h.nodup id) hdis hact)
            · have he' : (if a = none ∨ a = some s then (⟨none, u.outer s⟩ : Place)
                else ⟨a, node⟩).at? = none := he
              rw [if_neg hc] at he'
              exact absurd (Or.inl he') hc
        · intro hor
          have hc : a = none ∨ a = dis := by
            rcases hor with ho | ho
            · exact Or.inl (means_unique hact (show (w.plug id).active = _ from ho))
            · rw [ho] at hdis
              exact Or.inr (means_unique hact hdis)
          have he : (pull u.outer ⟨a, node⟩ dis).at? = none := by
            rcases dis with _ | s
            · show a = none
              rcases hc with hc | hc
              · exact hc
              · exact hc
            · show (if a = none ∨ a = some s then (⟨none, u.outer s⟩ : Place)
                else ⟨a, node⟩).at? = none
              rw [if_pos hc]
          rw [he] at h5
          exact h5
      · have ha0 : (w.plug id).active ≠ (w.plug id).no := fun hh => hdn ⟨hr, hh⟩
        have hsk : v.sock = w.sock := by
          rw [hv, hx]
          show (processDis u id node).world.sock = _
          rw [dis_oor hui id node (by rw [f4, f5]; exact hr) (by rw [f1, f2]; exact ha0), hus]
        rw [in_congr hsk, in_iff h (fun hf => hf) none]
        constructor
        · intro hh; exact absurd hh ha0
        · rintro (hh | hh)
          · exact absurd hh ha0
          · rw [hh] at hr; exact absurd (act_rng h id) hr
    rw [hout] at hct
    rcases hyt : y.threw
    · rw [hyt] at hupd hct
      rw [if_neg Bool.false_ne_true] at hupd
      rw [hupd]
      dsimp only
      refine ⟨⟨fun hf => absurd hf Bool.false_ne_true, fun hh => ?_⟩,
        fun hf => absurd hf Bool.false_ne_true⟩
      refine hct.mpr ?_
      rcases hh with ⟨h1, h2 | h2⟩ | ⟨h1, h2⟩
      · exact absurd ⟨h2, h1⟩ hdn
      · exact ⟨h2, Or.inl h1⟩
      · exact ⟨h1, Or.inr h2⟩
    · rw [hyt] at hupd hct
      rw [if_pos rfl] at hupd
      obtain ⟨c1, c2⟩ := hct.mp rfl
      have hyw : y.world = v := by
        have := con_threw_world (w := v) id x.node (by rw [← hy]; exact hyt)
        rw [← hy] at this; exact this
      rw [hupd]
      refine ⟨⟨fun _ => ?_, fun _ => hyt⟩, fun _ => ?_⟩
      · rcases c2 with c2 | c2
        · exact Or.inl ⟨c2, Or.inr c1⟩
        · exact Or.inr ⟨c1, c2⟩
      · rw [hyw]
        refine ⟨hvd, hout.mpr c2, Or.inr ?_⟩
        rw [hvr, v5, f3]
        exact c1
  · rw [ht] at hupd hdt
    rw [if_pos rfl] at hupd
    obtain ⟨c1, c2⟩ := hdt.mp rfl
    have hxw : x.world = u := by
      have := dis_threw_world (w := u) id node (by rw [← hx]; exact ht)
      rw [← hx] at this; exact this
    rw [hupd]
    refine ⟨⟨fun _ => Or.inl ⟨c2, Or.inl c1⟩, fun _ => ht⟩, fun _ => ?_⟩
    rw [hxw]
    refine ⟨hdu, by rw [f1, f2]; exact c2, Or.inl ?_⟩
    rw [f5, f4]
    exact c1

end Gunns.Plugs
