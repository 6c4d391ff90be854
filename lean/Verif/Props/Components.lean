import Verif.Proofs.DemoFacts
import Verif.Proofs.Demo
import Verif.Proofs.Effect
/-!
# C07, C08, C31, C32, C33, C36: adding and removing components
-/
namespace Ellecs.WorldSpec
open World Demo

/-! ## C07 -/

/-- What a successful `add_component::<T>(e, v)` does: `c` is the component of `T` afterwards. -/
structure Added (w w' : World) (e : EcsId) (t : Ty) (c : EcsId) (v : Bytes) : Prop where
  alive : w.Alive e ∧ w.Row e
  typ : w'.typeMap t = some c ∧ w'.Alive c
  absent : ¬ w.HasComp e c
  self : ∀ c' bs, w'.Has e c' bs ↔ if c' = c then bs = v else w.Has e c' bs
  others : ∀ x, x ≠ e → ∀ c' bs, w'.Has x c' bs ↔ w.Has x c' bs
  alives : ∀ x, w'.Alive x ↔ w.Alive x ∨ NewTy w w' x
  rows : ∀ x, w'.Row x ↔ w.Row x ∨ NewTy w w' x
  new : ∀ x, NewTy w w' x → x = c ∧ ¬ w.entities.Known x
  types : ∀ t', t' ≠ t → w'.typeMap t' = w.typeMap t'
  kept : ∀ t' c', w.typeMap t' = some c' → w'.typeMap t' = some c'
  infos : ∀ x m, w.Alive x → (w'.InfoIs x m ↔ w.InfoIs x m)
  log : w'.log = w.log

theorem added {w w' : World} (hi : Inv w) (hn : w.entities.NoWrap) {e : EcsId} {t : Ty} {v : Bytes} (hv : v.length = t.size) (ht : w.TypeAlive t)
    (hr : addComponent e t v w = .ok () w') : ∃ c, Added w w' e t c v ∧ Inv w' ∧ w'.entities.NoWrap := by
  obtain ⟨hl, c, w1, g, hh⟩ := (addComponent_spec hi hn.ready e t hv).ok hr
  have hcl : w1.entities.Live c := by
    rcases g.cases with ⟨h1, rfl⟩ | ⟨h1, h2⟩
    · exact alive_iff.1 (ht c h1)
    · exact h2
  rcases hh with ⟨h1, _⟩ | ⟨h1, h2, h3, h4, hu, h6⟩
  · exact absurd hcl h1
  have hnt : ∀ x, NewTy w w' x ↔ NewTy w w1 x := by intro x; unfold NewTy; rw [hu.typ]
  refine ⟨c, ⟨⟨alive_iff.2 hl, (g.grow.rowOld hl).1 h1⟩, ⟨by rw [hu.typ]; exact g.typ, by rw [alive_iff, hu.ent]; exact h2⟩, ?_, ?_, ?_, ?_, ?_, ?_, ?_,
    ?_, ?_, h4.trans g.grow.log⟩, hu.inv, by rw [hu.ent]; exact g.grow.nowrap hn⟩
  · rintro ⟨bs, hb⟩; exact h3 ⟨bs, (g.grow.has _ _ _).2 hb⟩
  · intro c' bs
    rw [hu.self, g.grow.has]
  · intro x hx c' bs
    rw [hu.others x hx, g.grow.has]
  · intro x
    rw [alive_iff, alive_iff, hu.ent, g.grow.live, hnt]
  · intro x
    rw [hu.row, g.grow.row, hnt]
  · intro x hx
    rw [hnt] at hx
    refine ⟨?_, fun hk => g.grow.unknown x hx (hk.kept hn)⟩
    obtain ⟨t', h1, h2⟩ := hx
    by_cases htt : t' = t
    · subst htt; rw [g.typ] at h2; injection h2 with h2; exact h2.symm
    · rw [g.other t' htt, h1] at h2; cases h2
  · intro t' h'
    rw [hu.typ, g.other t' h']
  · intro t' c' h'
    rw [hu.typ]; exact g.grow.typ t' c' h'
  · intro x m hx
    have hx' := alive_iff.1 hx
    rw [infoIs_iff hu.inv, infoIs_iff hi, hu.row, hu.comp, g.grow.comp x hx', g.grow.rowOld hx']

/-- C07: if `add_component::<T>(e, v)` returns, then `e` did not have `T` before, now has it with value `v`, and
everything else is as before. -/
theorem C07_add_exact {w w' : World} (hw : Reachable w) {e : EcsId} {t : Ty} {v : Bytes} (hv : v.length = t.size) (ht : w.TypeAlive t)
    (hr : addComponent e t v w = .ok () w') : ∃ c, Added w w' e t c v :=
  (added hw.sound.inv hw.sound.nowrap hv ht hr).imp fun _ h => h.1

/-- A known type and a new one. -/
example := C07_add_exact demo_reachable (e := ent 0) (t := tB) (v := val 8 5) rfl (by decide +kernel) (eq_of_endsOk (by decide +kernel))
example := C07_add_exact demo_reachable (e := ent 6) (t := tC) (v := val 2 5) rfl (by decide +kernel) (eq_of_endsOk (by decide +kernel))

/-- C07: it returns for every built entity without `T`, unless ids or memory run out. -/
theorem C07_add_succeeds {w : World} (hw : Reachable w) {e : EcsId} {t : Ty} {v : Bytes} (hv : v.length = t.size) (ht : w.TypeAlive t)
    (he : w.Row e) (hno : ∀ bs, ¬ w.HasT e t bs) (hids : w.entities.generations.length < 2 ^ 32) (hroom : w.Roomy)
    (hsz : t.size * 4 < isizeMax) : ∃ w', addComponent e t v w = .ok () w' := by
  have h := addComponent_spec hw.sound.inv hw.sound.nowrap.ready e t hv
  have hl := hw.sound.inv.row_live he
  unfold Tri at h
  cases hx : addComponent e t v w with
  | ok u w' => exact ⟨w', rfl⟩
  | error f w' =>
    exfalso
    rw [hx] at h
    rcases h with ⟨w0, _, ⟨_, ⟨_, hh⟩ | ⟨_, hh⟩⟩ | ⟨_, hh, _⟩⟩ | ⟨c, w1, g, _, ⟨_, hh, _⟩ | ⟨_, _, _, hh, _⟩ | ⟨_, _, _, hh⟩⟩
    · rw [alive_iff.2 hl] at hh; cases hh
    · rw [alive_iff.2 hl] at hh; cases hh
    · omega
    · exact hh ((g.grow.rowOld hl).2 he)
    · obtain ⟨bs, hb⟩ := hh
      have hb' := (g.grow.has _ _ _).1 hb
      rcases g.cases with ⟨h1, _⟩ | ⟨h1, _⟩
      · exact hno bs ⟨c, h1, hb'⟩
      · obtain ⟨a, ha, hc⟩ := has_used hw.sound.inv hb'
        exact g.grow.unknown c ⟨t, h1, g.typ⟩ (hw.sound.inv.live_comp ha hc).1.kept
    · refine hh (g.grow.roomy ?_ hroom)
      intro t' h1 h2
      by_cases htt : t' = t
      · rw [htt]; exact hsz
      · rw [g.other t' htt] at h2; exact absurd h1 h2

example := C07_add_succeeds demo_reachable (e := ent 0) (t := tB) (v := val 8 5) rfl (by decide +kernel) (by decide +kernel) (not_hasT demo_typeB (by decide +kernel)) (by decide +kernel) (by decide +kernel)
  (by decide)

/-- C07 for `add_component_dynamic_with_data` (and with `src = []` for zero sized components). -/
theorem C07_add_dynamic_exact {w w' : World} (hw : Reachable w) {e c : EcsId} {m : ComponentMeta} {src : Bytes} (hm : w.InfoIs c m)
    (hsrc : m.layout.size ≤ src.length) (he : w.Alive e) (hr : addComponentDynamicWithData e c src w = .ok () w') :
    w.Row e ∧ ¬ w.HasComp e c ∧ (∀ c' bs, w'.Has e c' bs ↔ if c' = c then bs = src.take m.layout.size else w.Has e c' bs) ∧
    (∀ x, x ≠ e → ∀ c' bs, w'.Has x c' bs ↔ w.Has x c' bs) ∧ (∀ x, w'.Alive x ↔ w.Alive x) ∧ (∀ x, w'.Row x ↔ w.Row x) ∧
    w'.typeMap = w.typeMap ∧ (∀ x m, w'.InfoIs x m ↔ w.InfoIs x m) ∧ w'.log = w.log := by
  have hi := hw.sound.inv
  have hc := (infoIs_iff hi).1 hm
  have ha : w.isAlive c = .ok true := alive_iff.2 (hi.row_live hc.1)
  rcases (addDyn_spec hi e c (src := src) (by intro m' _ h; rw [hc.2] at h; injection h with h; subst h; exact hsrc)).ok hr with
    ⟨hh, _⟩ | ⟨_, h2, _, h4, h5, m', h6, hu, _⟩
  · rcases hh with hh | ⟨_, hh⟩
    · rw [he] at hh; cases hh
    · rw [ha] at hh; cases hh
  · rw [hc.2] at h6; injection h6 with h6; subst h6
    refine ⟨h2, h4, hu.self, hu.others, fun x => by rw [alive_iff, alive_iff, hu.ent], hu.row, hu.typ, fun x m => ?_, h5⟩
    rw [infoIs_iff hu.inv, infoIs_iff hi, hu.row, hu.comp]

example := C07_add_dynamic_exact demo_reachable (e := ent 3) (c := ent 2) (src := val 9 5) infoB (by decide) (by decide +kernel) (eq_of_endsOk (by decide +kernel))

/-- C07 for `add_component_dynamic`. -/
theorem C07_add_zero_sized_exact {w w' : World} (hw : Reachable w) {e c : EcsId} (hr : addComponentDynamic e c w = .ok () w') :
    (∃ m, w.InfoIs c m ∧ m.layout.size = 0) ∧ w.Row e ∧ ¬ w.HasComp e c ∧
    (∀ c' bs, w'.Has e c' bs ↔ if c' = c then bs = [] else w.Has e c' bs) ∧
    (∀ x, x ≠ e → ∀ c' bs, w'.Has x c' bs ↔ w.Has x c' bs) ∧ (∀ x, w'.Alive x ↔ w.Alive x) ∧ (∀ x, w'.Row x ↔ w.Row x) ∧
    w'.typeMap = w.typeMap ∧ w'.log = w.log := by
  obtain ⟨h1, h2, h3, m, h4, h5, hu, _⟩ := (addZst_spec hw.sound.inv e c).ok hr
  exact ⟨⟨m, h4, h5⟩, h1, h2, hu.self, hu.others, fun x => by rw [alive_iff, alive_iff, hu.ent], hu.row, hu.typ, h3⟩

example := C07_add_zero_sized_exact demo_reachable (e := ent 6) (c := ent 3) (eq_of_endsOk (by decide +kernel))

/-- C07: the dynamic calls return for every built entity without the component, unless memory runs out. -/
theorem C07_add_dynamic_succeeds {w : World} (hw : Reachable w) {e c : EcsId} {m : ComponentMeta} {src : Bytes} (hm : w.InfoIs c m)
    (hsrc : m.layout.size ≤ src.length) (he : w.Row e) (hno : ¬ w.HasComp e c) (hroom : w.Roomy) :
    (∃ w', addComponentDynamicWithData e c src w = .ok () w') ∧ (m.layout.size = 0 → ∃ w', addComponentDynamic e c w = .ok () w') := by
  have hi := hw.sound.inv
  have hc := (infoIs_iff hi).1 hm
  have hle := hi.row_live he
  have hlc := hi.row_live hc.1
  constructor
  · have h := addDyn_spec hi e c (src := src) (by intro m' _ h; rw [hc.2] at h; injection h with h; subst h; exact hsrc)
    rcases h.cases with ⟨u, w', hx, _⟩ | ⟨f, w', hx, ⟨_, hh | hh, _⟩ | ⟨_, _, hh, _⟩ | ⟨_, _, _, hh, _⟩ | ⟨_, _, _, hh, _⟩ | ⟨_, _, _, hh, _⟩⟩
    · exact ⟨w', hx⟩
    · rw [alive_iff.2 hle] at hh; cases hh
    · rw [alive_iff.2 hlc] at hh; cases hh
    · exact absurd he hh
    · exact absurd hh hno
    · rw [hc.2] at hh; cases hh
    · exact absurd hroom hh
  · intro hz
    rcases (addZst_spec hi e c).cases with ⟨u, w', hx, _⟩ | ⟨f, w', hx, ⟨_, ⟨_, hh | hh⟩ | ⟨_, hh | hh⟩ | ⟨_, hh | hh⟩ | ⟨_, m', hm', hh⟩ | ⟨_, hh⟩⟩ | ⟨_, hh⟩⟩
    · exact ⟨w', hx⟩
    · rw [alive_iff.2 hle] at hh; cases hh
    · rw [alive_iff.2 hlc] at hh; cases hh
    · exact absurd (alive_iff.2 hle) hh
    · exact absurd (alive_iff.2 hlc) hh
    · exact absurd hc.1 hh
    · exact absurd he hh
    · have h2 := ((infoIs_iff hi).1 hm').2
      rw [hc.2] at h2; injection h2 with h2; subst h2
      exact absurd hz hh
    · exact absurd hh hno
    · exact absurd hroom hh

example := C07_add_dynamic_succeeds demo_reachable (e := ent 3) (c := ent 2) (src := val 9 5) infoB (by decide) (by decide +kernel) (by decide +kernel) (by decide +kernel)

/-- C07 is not vacuous: a known and a new type, on an entity with components. -/
example : (∃ w', addComponent (ent 0) tB (val 8 5) demo = .ok () w') ∧ (∃ w', addComponent (ent 6) tC (val 2 5) demo = .ok () w') ∧
    demo.TypeAlive tB ∧ demo.TypeAlive tC := by
  refine ⟨⟨_, eq_of_endsOk (a := ()) (by decide +kernel)⟩, ⟨_, eq_of_endsOk (a := ()) (by decide +kernel)⟩,
    by decide +kernel, by decide +kernel⟩

example : (∃ w', addComponentDynamicWithData (ent 3) (ent 2) (val 9 5) demo = .ok () w') ∧ (∃ m, demo.InfoIs (ent 2) m) ∧
    (∃ w', addComponentDynamic (ent 6) (ent 3) demo = .ok () w') := by
  refine ⟨⟨_, eq_of_endsOk (a := ()) (by decide +kernel)⟩, ?_, ⟨_, eq_of_endsOk (a := ()) (by decide +kernel)⟩⟩
  exact ⟨(demo.infoOf (ent 2)).get (by decide +kernel), (infoOf_iff).1 (Option.some_get _).symm⟩

/-! ## C08 -/

/-- What a successful removal of component `c` of `e` does; `evs` are the drop calls it makes. -/
structure Removed (w w' : World) (e c : EcsId) (evs : List DropEv) : Prop where
  self : ∀ c' bs, w'.Has e c' bs ↔ c' ≠ c ∧ w.Has e c' bs
  others : ∀ x, x ≠ e → ∀ c' bs, w'.Has x c' bs ↔ w.Has x c' bs
  alives : ∀ x, w'.Alive x ↔ w.Alive x
  rows : ∀ x, w'.Row x ↔ w.Row x
  types : w'.typeMap = w.typeMap
  infos : ∀ x m, w'.InfoIs x m ↔ w.InfoIs x m
  log : w'.log = w.log ++ evs

theorem Upd.removed {w w' : World} {e c : EcsId} (hi : Inv w) (hu : Upd w w' e (fun c' bs => c' ≠ c ∧ w.Has e c' bs)) {evs : List DropEv}
    (hl : w'.log = w.log ++ evs) : Removed w w' e c evs :=
  ⟨hu.self, hu.others, fun x => by rw [alive_iff, alive_iff, hu.ent], hu.row, hu.typ,
    fun x m => by rw [infoIs_iff hu.inv, infoIs_iff hi, hu.row, hu.comp], hl⟩

theorem removed {w w' : World} (hi : Inv w) (hn : w.entities.NoWrap) {e : EcsId} {t : Ty} (ht : w.TypeAlive t)
    (hr : removeComponent e t w = .ok () w') :
    ∃ c bs, w.typeMap t = some c ∧ w.Has e c bs ∧ Removed w w' e c [⟨.generic t, bs⟩] ∧ Inv w' ∧ w'.entities = w.entities := by
  obtain ⟨_, c, h1, ⟨h2, _⟩ | ⟨_, _, bs, h3, h4, hu, _⟩⟩ := (removeComponent_spec hi hn.ready e t).ok hr
  · exact absurd (alive_iff.1 (ht c h1)) h2
  · exact ⟨c, bs, h1, h3, Upd.removed hi hu h4, hu.inv, hu.ent⟩

/-- C08: if `remove_component::<T>(e)` returns, then `e` had `T` before; it keeps everything else; nothing else changes; and
exactly the removed value is dropped. -/
theorem C08_remove_exact {w w' : World} (hw : Reachable w) {e : EcsId} {t : Ty} (ht : w.TypeAlive t) (hr : removeComponent e t w = .ok () w') :
    ∃ c bs, w.typeMap t = some c ∧ w.Has e c bs ∧ Removed w w' e c [⟨.generic t, bs⟩] := by
  obtain ⟨c, bs, h1, h2, h3, _⟩ := removed hw.sound.inv hw.sound.nowrap ht hr
  exact ⟨c, bs, h1, h2, h3⟩

example := C08_remove_exact demo_reachable (e := ent 6) (t := tB) (by decide +kernel) (eq_of_endsOk (by decide +kernel))

theorem remove_succeeds {w : World} (hi : Inv w) (hn : w.entities.NoWrap) {e : EcsId} {t : Ty} {bs : Bytes} (hh : w.HasT e t bs)
    (hroom : w.Roomy) : ∃ w', removeComponent e t w = .ok () w' := by
  obtain ⟨c, hc, hb⟩ := hh
  have h := removeComponent_spec hi hn.ready e t
  have hr := hi.has_live hb
  have hl := hi.row_live hr
  unfold Tri at h
  cases hx : removeComponent e t w with
  | ok u w' => exact ⟨w', rfl⟩
  | error f w' =>
    exfalso
    rw [hx] at h
    have hsame : ∀ {c' : EcsId} {w1 : World}, GotId w t c' w1 → w1 = w ∧ c' = c := by
      intro c' w1 g
      rcases g.cases with ⟨h1, h2⟩ | ⟨h1, _⟩
      · rw [hc] at h1; injection h1 with h1; exact ⟨h2, h1.symm⟩
      · rw [hc] at h1; cases h1
    rcases h with ⟨_, hh, _⟩ | ⟨_, hh, _⟩ | ⟨_, _, hh, _⟩ | ⟨c', w1, g, _, ⟨_, hh, _⟩ | ⟨_, _, _, hh, _⟩ | ⟨_, _, _, hh⟩⟩
    · rw [alive_iff.2 hl] at hh; cases hh
    · rw [alive_iff.2 hl] at hh; cases hh
    · rw [hc] at hh; cases hh
    · obtain ⟨rfl, rfl⟩ := hsame g; exact hh hr
    · obtain ⟨rfl, rfl⟩ := hsame g; exact hh ⟨bs, hb⟩
    · obtain ⟨rfl, rfl⟩ := hsame g; exact hh hroom

/-- C08: it returns for every entity that has `T`, unless memory runs out. -/
theorem C08_remove_succeeds {w : World} (hw : Reachable w) {e : EcsId} {t : Ty} {bs : Bytes} (hh : w.HasT e t bs) (hroom : w.Roomy) :
    ∃ w', removeComponent e t w = .ok () w' := remove_succeeds hw.sound.inv hw.sound.nowrap hh hroom

example := C08_remove_succeeds demo_reachable (e := ent 6) (t := tB) (bs := val 8 8) ⟨ent 2, by decide +kernel, by decide +kernel⟩ (by decide +kernel)

/-- C08: the dynamic call returns for every entity that has the component, unless memory runs out. -/
theorem C08_remove_dynamic_succeeds {w : World} (hw : Reachable w) {e c : EcsId} (hh : w.HasComp e c) (hroom : w.Roomy) :
    ∃ w', removeComponentDynamic e c w = .ok () w' := by
  have hi := hw.sound.inv
  obtain ⟨bs, hb⟩ := hh
  obtain ⟨p, hp⟩ := has_points hb
  obtain ⟨m, hm⟩ := hp.info hi
  have hlc := hi.row_live ((infoIs_iff hi).1 hm).1
  have he : w.Row e := hi.has_live hb
  have hle := hi.row_live he
  rcases (removeDyn_spec hi e c).cases with ⟨u, w', hx, _⟩ | ⟨f, w', hx, ⟨_, hh | hh, _⟩ | ⟨_, _, hh, _⟩ | ⟨_, _, _, hh, _⟩ | ⟨_, _, _, hh, _⟩⟩
  · exact ⟨w', hx⟩
  · rw [alive_iff.2 hle] at hh; cases hh
  · rw [alive_iff.2 hlc] at hh; cases hh
  · exact absurd he hh
  · exact absurd ⟨bs, hb⟩ hh
  · exact absurd hroom hh

example := C08_remove_dynamic_succeeds demo_reachable (e := ent 0) (c := ent 1) (by decide +kernel) (by decide +kernel)

/-- C08 for `remove_component_dynamic`. -/
theorem C08_remove_dynamic_exact {w w' : World} (hw : Reachable w) {e c : EcsId} (he : w.Alive e) (hc : w.Alive c)
    (hr : removeComponentDynamic e c w = .ok () w') : ∃ m bs, w.InfoIs c m ∧ w.Has e c bs ∧ Removed w w' e c (owed m bs) := by
  have hi := hw.sound.inv
  rcases (removeDyn_spec hi e c).ok hr with ⟨hh, _⟩ | ⟨_, _, _, m, bs, h1, h2, h3, hu, _⟩
  · rcases hh with hh | ⟨_, hh⟩
    · rw [he] at hh; cases hh
    · rw [hc] at hh; cases hh
  · obtain ⟨p, hp⟩ := has_points h2
    obtain ⟨m', hm'⟩ := hp.info hi
    have := ((infoIs_iff hi).1 hm').2
    rw [h1] at this; injection this with this; subst this
    exact ⟨m, bs, hm', h2, Upd.removed hi hu (by rw [h3, owed_eq])⟩

example := C08_remove_dynamic_exact demo_reachable (e := ent 0) (c := ent 1) (by decide +kernel) (by decide +kernel) (eq_of_endsOk (by decide +kernel))

example : (∃ bs, demo.HasT (ent 6) tB bs) ∧ (∃ w', removeComponent (ent 6) tB demo = .ok () w') ∧ demo.TypeAlive tB ∧
    (∃ w', removeComponentDynamic (ent 0) (ent 1) demo = .ok () w') := by
  refine ⟨⟨val 8 8, ent 2, by decide +kernel, by decide +kernel⟩, ⟨_, eq_of_endsOk (a := ()) (by decide +kernel)⟩, by decide +kernel,
    ⟨_, eq_of_endsOk (a := ()) (by decide +kernel)⟩⟩

/-! ## C31 -/

/-- C31: whatever is cached (the cache is part of the reachable world), adding `c` moves `e` from its table to the table
of exactly its components and `c`. -/
theorem C31_add_target {w w' : World} (hw : Reachable w) {e c : EcsId} {m : ComponentMeta} {src : Bytes} (hm : w.InfoIs c m)
    (hsrc : m.layout.size ≤ src.length) (he : w.Alive e) (hr : addComponentDynamicWithData e c src w = .ok () w')
    {k r : Nat} {a : Archetype} (h1 : w.archetypes[k]? = some a) (h2 : a.entities[r]? = some e) :
    ∃ (k' r' : Nat) (a' : Archetype), w'.archetypes[k']? = some a' ∧ a'.entities[r']? = some e ∧
      (∀ x, x ∈ a'.compIds ↔ x ∈ a.compIds ∨ x = c) ∧
      ∀ (k2 r2 : Nat) (a2 : Archetype), w'.archetypes[k2]? = some a2 → a2.entities[r2]? = some e → k2 = k' ∧ r2 = r' := by
  have hi := hw.sound.inv
  obtain ⟨q1, q2, q3, _, _, q6, _⟩ := C07_add_dynamic_exact hw hm hsrc he hr
  obtain ⟨k', r', a', h3, h4⟩ := (q6 e).2 q1
  have hi' : Inv w' := by
    have hc := (infoIs_iff hi).1 hm
    rcases (addDyn_spec hi e c (src := src) (by intro m' _ h; rw [hc.2] at h; injection h with h; subst h; exact hsrc)).ok hr with
      ⟨_, rfl⟩ | ⟨_, _, _, _, _, m', _, hu, _⟩
    · exact hi
    · exact hu.inv
  refine ⟨k', r', a', h3, h4, ?_, ?_⟩
  · intro x
    rw [← hasComp_at hi' h3 h4, ← hasComp_at hi h1 h2]
    unfold HasComp
    simp only [q3]
    by_cases hx : x = c
    · subst hx; simp
    · simp [hx]
  · intro k2 r2 a2 h5 h6
    exact hi'.row_inj (by rw [rowOf_eq h5]; exact h6) (by rw [rowOf_eq h3]; exact h4)

/-- Entity 3 is in table 2; adding `B` brings it to table 1. -/
example := C31_add_target demo_reachable (e := ent 3) (c := ent 2) (src := val 8 5) infoB (by decide) (by decide +kernel) (eq_of_endsOk (by decide +kernel)) (k := 2) (r := 0)
  table2_at three_row

/-- C31: removing `c` moves `e` to the table of exactly its other components. -/
theorem C31_remove_target {w w' : World} (hw : Reachable w) {e c : EcsId} (he : w.Alive e) (hc : w.Alive c)
    (hr : removeComponentDynamic e c w = .ok () w')
    {k r : Nat} {a : Archetype} (h1 : w.archetypes[k]? = some a) (h2 : a.entities[r]? = some e) :
    ∃ (k' r' : Nat) (a' : Archetype), w'.archetypes[k']? = some a' ∧ a'.entities[r']? = some e ∧
      (∀ x, x ∈ a'.compIds ↔ x ∈ a.compIds ∧ x ≠ c) ∧
      ∀ (k2 r2 : Nat) (a2 : Archetype), w'.archetypes[k2]? = some a2 → a2.entities[r2]? = some e → k2 = k' ∧ r2 = r' := by
  have hi := hw.sound.inv
  obtain ⟨m, bs, _, q2, q3⟩ := C08_remove_dynamic_exact hw he hc hr
  obtain ⟨k', r', a', h3, h4⟩ := (q3.rows e).2 (hi.has_live q2)
  have hi' : Inv w' := by
    rcases (removeDyn_spec hi e c).ok hr with ⟨_, rfl⟩ | ⟨_, _, _, m, bs, _, _, _, hu, _⟩
    · exact hi
    · exact hu.inv
  refine ⟨k', r', a', h3, h4, ?_, ?_⟩
  · intro x
    rw [← hasComp_at hi' h3 h4, ← hasComp_at hi h1 h2]
    unfold HasComp
    simp only [q3.self]
    constructor
    · rintro ⟨b, h5, h6⟩; exact ⟨⟨b, h6⟩, h5⟩
    · rintro ⟨⟨b, h6⟩, h5⟩; exact ⟨b, h5, h6⟩
  · intro k2 r2 a2 h5 h6
    exact hi'.row_inj (by rw [rowOf_eq h5]; exact h6) (by rw [rowOf_eq h3]; exact h4)

example := C31_remove_target demo_reachable (e := ent 0) (c := ent 4) (by decide +kernel) (by decide +kernel) (eq_of_endsOk (by decide +kernel)) (k := 4) (r := 0) table4_at zero_row

/-- Some edges are cached in the example world, so C31 speaks about hits as well as misses. -/
example : (∃ a ∈ demo.archetypes, ent 6 ∈ a.entities ∧ ∃ p ∈ a.cache.cache.array, p.map Prod.fst = some (ent 4)) ∧
    (∃ w', addComponentDynamicWithData (ent 6) (ent 4) [] demo = .ok () w') ∧
    (∃ a ∈ demo.archetypes, ent 3 ∈ a.entities ∧ ∀ p ∈ a.cache.cache.array, p.map Prod.fst ≠ some (ent 2)) ∧
    (∃ w', addComponentDynamicWithData (ent 3) (ent 2) (val 8 5) demo = .ok () w') :=
  ⟨by decide +kernel, ⟨_, eq_of_endsOk (a := ()) (by decide +kernel)⟩, by decide +kernel, ⟨_, eq_of_endsOk (a := ()) (by decide +kernel)⟩⟩

/-! ## C32 -/

/-- C32: adding a component and removing it again leaves every entity with the components and values it had; exactly the
added value is dropped.  Only the component entity of a type used for the first time stays. -/
theorem C32_add_remove {w w1 w2 : World} (hw : Reachable w) {e : EcsId} {t : Ty} {v : Bytes} (hv : v.length = t.size) (ht : w.TypeAlive t)
    (h1 : addComponent e t v w = .ok () w1) (h2 : removeComponent e t w1 = .ok () w2) :
    (∀ x c bs, w2.Has x c bs ↔ w.Has x c bs) ∧ (∀ x, w2.Alive x ↔ w.Alive x ∨ NewTy w w1 x) ∧ (∀ x, w2.Row x ↔ w.Row x ∨ NewTy w w1 x) ∧
    w2.typeMap = w1.typeMap ∧ w2.log = w.log ++ [⟨.generic t, v⟩] := by
  obtain ⟨c, ha, hi1, hn1⟩ := added hw.sound.inv hw.sound.nowrap hv ht h1
  obtain ⟨c', bs, k1, k2, k3, _⟩ := removed hi1 hn1 (fun x hx => by rw [ha.typ.1] at hx; injection hx with hx; subst hx; exact ha.typ.2) h2
  rw [ha.typ.1] at k1; injection k1 with k1; subst k1
  have hb : bs = v := by rw [ha.self, if_pos rfl] at k2; exact k2
  subst hb
  refine ⟨?_, fun x => (k3.alives x).trans (ha.alives x), fun x => (k3.rows x).trans (ha.rows x), k3.types, by rw [k3.log, ha.log]⟩
  intro x d b
  by_cases hx : x = e
  · subst hx
    rw [k3.self, ha.self]
    by_cases hd : d = c
    · subst hd
      simp only [ne_eq, not_true_eq_false, false_and, false_iff]
      exact fun hh => ha.absent ⟨b, hh⟩
    · simp [hd]
  · rw [k3.others x hx, ha.others x hx]

example := C32_add_remove demo_reachable (e := ent 0) (t := tB) (v := val 8 5) rfl (by decide +kernel) (eq_of_endsOk (by decide +kernel)) (eq_of_endsOk (by decide +kernel))

/-- C32: the removal returns, unless memory runs out. -/
theorem C32_remove_returns {w w1 : World} (hw : Reachable w) {e : EcsId} {t : Ty} {v : Bytes} (hv : v.length = t.size) (ht : w.TypeAlive t)
    (h1 : addComponent e t v w = .ok () w1) (hroom : w1.Roomy) : ∃ w2, removeComponent e t w1 = .ok () w2 := by
  obtain ⟨c, ha, hi1, hn1⟩ := added hw.sound.inv hw.sound.nowrap hv ht h1
  exact remove_succeeds hi1 hn1 ⟨c, ha.typ.1, (ha.self c v).2 (by rw [if_pos rfl])⟩ hroom

example := C32_remove_returns demo_reachable (e := ent 0) (t := tB) (v := val 8 5) rfl (by decide +kernel) (eq_of_endsOk (by decide +kernel)) (by decide +kernel)

example : ∃ w1 w2, addComponent (ent 0) tB (val 8 5) demo = .ok () w1 ∧ removeComponent (ent 0) tB w1 = .ok () w2 :=
  ⟨_, _, eq_of_endsOk (a := ()) (by decide +kernel), eq_of_endsOk (a := ()) (by decide +kernel)⟩

/-! ## C33 -/

/-- C33: adding components of two types in either order gives the same entities, components and values (the ids of types
used for the first time may differ; see `AlikeFor`). -/
theorem C33_add_commutes {w w1 w2 u1 u2 : World} (hw : Reachable w) {e : EcsId} {t s : Ty} {v x : Bytes} (hv : v.length = t.size)
    (hx : x.length = s.size) (hts : t ≠ s) (ht : w.TypeAlive t) (hs : w.TypeAlive s)
    (h1 : addComponent e t v w = .ok () w1) (h2 : addComponent e s x w1 = .ok () w2)
    (k1 : addComponent e s x w = .ok () u1) (k2 : addComponent e t v u1 = .ok () u2) : AlikeFor w w2 u2 e := by
  have hi := hw.sound.inv
  -- one order
  have one : ∀ {t s : Ty} {v x : Bytes} (_ : v.length = t.size) (_ : x.length = s.size) (_ : t ≠ s) (_ : w.TypeAlive t) (_ : w.TypeAlive s)
      {w1 w2 : World} (_ : addComponent e t v w = .ok () w1) (_ : addComponent e s x w1 = .ok () w2),
      Inv w2 ∧ w.Alive e ∧ ∃ c d, c ≠ d ∧ w2.typeMap t = some c ∧ w2.typeMap s = some d ∧
        (w.typeMap t = some c ∨ (w.typeMap t = none ∧ ¬ w.entities.Known c)) ∧ (w.typeMap s = some d ∨ (w.typeMap s = none ∧ ¬ w.entities.Known d)) ∧
        (∀ t', t' ≠ t → t' ≠ s → w2.typeMap t' = w.typeMap t') ∧
        (∀ c' bs, w2.Has e c' bs ↔ if c' = d then bs = x else if c' = c then bs = v else w.Has e c' bs) ∧
        (∀ y, y ≠ e → ∀ c' bs, w2.Has y c' bs ↔ w.Has y c' bs) ∧
        (∀ y, w.Alive y → w2.Alive y ∧ (w2.Row y ↔ w.Row y)) ∧ ∀ m, w2.InfoIs e m ↔ w.InfoIs e m := by
    intro t s v x hv hx hts ht hs w1 w2 h1 h2
    obtain ⟨c, a, i1, n1⟩ := added hi hw.sound.nowrap hv ht h1
    have hs1 : w1.TypeAlive s := by
      intro d hd
      rw [a.types s (Ne.symm hts)] at hd
      exact (a.alives d).2 (Or.inl (hs d hd))
    obtain ⟨d, b, i2, n2⟩ := added i1 n1 hx hs1 h2
    have ht2 : w2.typeMap t = some c := b.kept t c a.typ.1
    have hk : ∀ y, w.entities.Known y → w1.entities.Known y := by
      intro y hy
      obtain ⟨hl, c', w0, g, hh⟩ := (addComponent_spec hi hw.sound.nowrap.ready e t hv).ok h1
      have := (g.grow.known y (hy.kept hw.sound.nowrap)).1
      rcases hh with ⟨_, rfl⟩ | ⟨_, _, _, _, hu, _⟩
      · exact this
      · rw [hu.ent]; exact this
    refine ⟨i2, a.alive.1, c, d, ?_, ht2, b.typ.1, ?_, ?_, ?_, ?_, ?_, ?_, ?_⟩
    · intro hcd
      subst hcd
      exact hts (i2.type.inj _ _ _ ht2 b.typ.1)
    · cases hh : w.typeMap t with
      | none => exact Or.inr ⟨rfl, (a.new c ⟨t, hh, a.typ.1⟩).2⟩
      | some y => have := a.kept t y hh; rw [a.typ.1] at this; exact Or.inl this.symm
    · cases hh : w.typeMap s with
      | none =>
        have hh1 : w1.typeMap s = none := by rw [a.types s (Ne.symm hts)]; exact hh
        exact Or.inr ⟨rfl, fun hk' => (b.new d ⟨s, hh1, b.typ.1⟩).2 (hk d hk')⟩
      | some y =>
        have := b.kept s y (a.kept s y hh); rw [b.typ.1] at this; exact Or.inl this.symm
    · intro t' h3 h4; rw [b.types t' h4, a.types t' h3]
    · intro c' bs; rw [b.self]; by_cases hd : c' = d
      · rw [if_pos hd, if_pos hd]
      · rw [if_neg hd, if_neg hd, a.self]
    · intro y hy c' bs; rw [b.others y hy, a.others y hy]
    · intro y hy
      have hy1 : w1.Alive y := (a.alives y).2 (Or.inl hy)
      refine ⟨(b.alives y).2 (Or.inl hy1), ?_⟩
      rw [b.rows, a.rows]
      constructor
      · rintro ((hh | hh) | hh)
        · exact hh
        · exact absurd (alive_iff.1 hy).known (a.new y hh).2
        · exact absurd (alive_iff.1 hy1).known (b.new y hh).2
      · intro hh; exact Or.inl (Or.inl hh)
    · intro m
      rw [b.infos e m ((a.alives e).2 (Or.inl a.alive.1)), a.infos e m a.alive.1]
  obtain ⟨i2, hal, c, d, hcd, tc, td, oc, od, ot, self, oth, row, inf⟩ := one hv hx hts ht hs h1 h2
  obtain ⟨j2, _, d', c', hcd', td', tc', od', oc', ot', self', oth', row', inf'⟩ := one hx hv (Ne.symm hts) hs ht k1 k2
  have same : ∀ {t : Ty} {c c' y : EcsId}, (w.typeMap t = some c ∨ (w.typeMap t = none ∧ ¬ w.entities.Known c)) →
      (w.typeMap t = some c' ∨ (w.typeMap t = none ∧ ¬ w.entities.Known c')) → w.Alive y → (y = c ↔ y = c') := by
    intro t c c' y h1 h2 hy
    have hk := (alive_iff.1 hy).known
    rcases h1 with h1 | ⟨h1, h1'⟩ <;> rcases h2 with h2 | ⟨h2, h2'⟩
    · rw [h1] at h2; injection h2 with h2; subst h2; exact Iff.rfl
    · rw [h1] at h2; cases h2
    · rw [h1] at h2; cases h2
    · constructor
      · rintro rfl; exact absurd hk h1'
      · rintro rfl; exact absurd hk h2'
  have compAlive : ∀ {y bs}, w.Has e y bs → w.Alive y := by
    intro y bs hh
    obtain ⟨a, ha, hc⟩ := has_used hi hh
    exact alive_iff.2 (hi.live_comp ha hc).1
  refine ⟨fun y hy c bs => (oth y hy c bs).trans (oth' y hy c bs).symm, ?_, ?_, ?_, ?_, ?_, ?_, fun m => (inf m).trans (inf' m).symm⟩
  · intro y bs hy
    rw [self, self']
    have e1 := same oc oc' hy
    have e2 := same od od' hy
    by_cases q1 : y = c
    · have q3 : y ≠ d := fun h => hcd (q1.symm.trans h)
      have q4 := e1.1 q1
      rw [if_neg q3, if_pos q1, if_pos q4]
    · have q4 : y ≠ c' := fun h => q1 (e1.2 h)
      rw [if_neg q1, if_neg q4]
      by_cases q5 : y = d
      · rw [if_pos q5, if_pos (e2.1 q5)]
      · rw [if_neg q5, if_neg (fun h => q5 (e2.2 h))]
  · intro r bs
    by_cases hr1 : r = t
    · subst hr1
      have l : (∃ c, w2.typeMap r = some c ∧ w2.Has e c bs) ↔ bs = v := by
        constructor
        · rintro ⟨y, hy, hh⟩
          rw [tc] at hy; injection hy with hy; subst hy
          rw [self, if_neg hcd, if_pos rfl] at hh; exact hh
        · intro hb; exact ⟨c, tc, by rw [self, if_neg hcd, if_pos rfl]; exact hb⟩
      have l' : (∃ c, u2.typeMap r = some c ∧ u2.Has e c bs) ↔ bs = v := by
        constructor
        · rintro ⟨y, hy, hh⟩
          rw [tc'] at hy; injection hy with hy; subst hy
          rw [self', if_pos rfl] at hh; exact hh
        · intro hb; exact ⟨c', tc', by rw [self', if_pos rfl]; exact hb⟩
      rw [l, l']
    · by_cases hr2 : r = s
      · subst hr2
        have l : (∃ c, w2.typeMap r = some c ∧ w2.Has e c bs) ↔ bs = x := by
          constructor
          · rintro ⟨y, hy, hh⟩
            rw [td] at hy; injection hy with hy; subst hy
            rw [self, if_pos rfl] at hh; exact hh
          · intro hb; exact ⟨d, td, by rw [self, if_pos rfl]; exact hb⟩
        have l' : (∃ c, u2.typeMap r = some c ∧ u2.Has e c bs) ↔ bs = x := by
          constructor
          · rintro ⟨y, hy, hh⟩
            rw [td'] at hy; injection hy with hy; subst hy
            rw [self', if_neg hcd', if_pos rfl] at hh; exact hh
          · intro hb; exact ⟨d', td', by rw [self', if_neg hcd', if_pos rfl]; exact hb⟩
        rw [l, l']
      · rw [ot r hr1 hr2, ot' r hr2 hr1]
        refine exists_congr fun y => and_congr_right fun hy => ?_
        have n1 : y ≠ c := by rintro rfl; exact hr1 (i2.type.inj _ _ _ (by rw [ot r hr1 hr2]; exact hy) tc)
        have n2 : y ≠ d := by rintro rfl; exact hr2 (i2.type.inj _ _ _ (by rw [ot r hr1 hr2]; exact hy) td)
        have n3 : y ≠ c' := by rintro rfl; exact hr1 (j2.type.inj _ _ _ (by rw [ot' r hr2 hr1]; exact hy) tc')
        have n4 : y ≠ d' := by rintro rfl; exact hr2 (j2.type.inj _ _ _ (by rw [ot' r hr2 hr1]; exact hy) td')
        rw [self, self', if_neg n1, if_neg n2, if_neg n3, if_neg n4]
  · intro y bs hh
    rw [self] at hh
    split at hh
    · rename_i hy; subst hy; exact Or.inr ⟨s, td⟩
    · split at hh
      · rename_i hy; subst hy; exact Or.inr ⟨t, tc⟩
      · exact Or.inl (compAlive hh)
  · intro y bs hh
    rw [self'] at hh
    split at hh
    · rename_i hy; subst hy; exact Or.inr ⟨t, tc'⟩
    · split at hh
      · rename_i hy; subst hy; exact Or.inr ⟨s, td'⟩
      · exact Or.inl (compAlive hh)
  · rintro y (hy | rfl)
    · rw [(row y hy).2, (row' y hy).2]
    · rw [(row y hal).2, (row' y hal).2]
  · rintro y (hy | rfl)
    · exact ⟨fun _ => (row' y hy).1, fun _ => (row y hy).1⟩
    · exact ⟨fun _ => (row' y hal).1, fun _ => (row y hal).1⟩

example := C33_add_commutes demo_reachable (e := ent 3) (t := tC) (s := tB) (v := val 2 5) (x := val 8 6) rfl rfl (by decide) (by decide +kernel) (by decide +kernel) (eq_of_endsOk (by decide +kernel)) (eq_of_endsOk (by decide +kernel)) (eq_of_endsOk (by decide +kernel)) (eq_of_endsOk (by decide +kernel))

/-- C33 for dynamic components: here the ids are fixed, so the same entities have the same components. -/
theorem C33_add_dynamic_commutes {w w1 w2 u1 u2 : World} (hw : Reachable w) {e c d : EcsId} {m n : ComponentMeta} {v x : Bytes} (hcd : c ≠ d)
    (hm : w.InfoIs c m) (hn : w.InfoIs d n) (hv : m.layout.size ≤ v.length) (hx : n.layout.size ≤ x.length) (he : w.Alive e)
    (h1 : addComponentDynamicWithData e c v w = .ok () w1) (h2 : addComponentDynamicWithData e d x w1 = .ok () w2)
    (k1 : addComponentDynamicWithData e d x w = .ok () u1) (k2 : addComponentDynamicWithData e c v u1 = .ok () u2)
    (hf1 : w1.NoFullSlot) (hf2 : u1.NoFullSlot) :
    (∀ y b bs, w2.Has y b bs ↔ u2.Has y b bs) ∧ (∀ y, w2.Alive y ↔ u2.Alive y) ∧ (∀ y, w2.Row y ↔ u2.Row y) ∧ w2.typeMap = u2.typeMap ∧
    w2.log = u2.log := by
  obtain ⟨_, _, a1, a2, a3, a4, a5, a6, a7⟩ := C07_add_dynamic_exact hw hm hv he h1
  obtain ⟨_, _, b1, b2, b3, b4, b5, b6, b7⟩ := C07_add_dynamic_exact hw hn hx he k1
  have ok : ∀ {c : EcsId} {m : ComponentMeta} {v : Bytes} (_ : w.InfoIs c m) (_ : m.layout.size ≤ v.length), ∀ m', w.InfoIs c m' → m'.layout.size ≤ v.length := by
    intro c m v h1 h2 m' h3
    rw [h3.uniq h1]; exact h2
  have r1 : Reachable w1 := .ok (.addDynamicWithData e c v) hw (ok hm hv) h1 hf1
  have r2 : Reachable u1 := .ok (.addDynamicWithData e d x) hw (ok hn hx) k1 hf2
  obtain ⟨_, _, c1, c2, c3, c4, c5, c6, c7⟩ := C07_add_dynamic_exact r1 ((a6 d n).2 hn) hx ((a3 e).2 he) h2
  obtain ⟨_, _, d1, d2, d3, d4, d5, d6, d7⟩ := C07_add_dynamic_exact r2 ((b6 c m).2 hm) hv ((b3 e).2 he) k2
  refine ⟨?_, fun y => by rw [c3, a3, d3, b3], fun y => by rw [c4, a4, d4, b4], by rw [c5, a5, d5, b5], by rw [c7, a7, d7, b7]⟩
  intro y b bs
  by_cases hy : y = e
  · subst hy
    rw [c1, d1, a1, b1]
    by_cases q1 : b = c
    · have q2 : b ≠ d := fun h => hcd (q1.symm.trans h)
      rw [if_neg q2, if_pos q1, if_pos q1]
    · rw [if_neg q1, if_neg q1]
  · rw [c2 y hy, a2 y hy, d2 y hy, b2 y hy]

example := C33_add_dynamic_commutes demo_reachable (e := ent 3) (c := ent 2) (d := ent 4) (v := val 8 5) (x := []) (by decide) infoB infoZ
  (by decide) (by decide) (by decide +kernel) (eq_of_endsOk (by decide +kernel)) (eq_of_endsOk (by decide +kernel)) (eq_of_endsOk (by decide +kernel)) (eq_of_endsOk (by decide +kernel)) (by decide +kernel) (by decide +kernel)

example : (∃ w1 w2, addComponent (ent 3) tC (val 2 5) demo = .ok () w1 ∧ addComponent (ent 3) tB (val 8 6) w1 = .ok () w2) ∧
    (∃ u1 u2, addComponent (ent 3) tB (val 8 6) demo = .ok () u1 ∧ addComponent (ent 3) tC (val 2 5) u1 = .ok () u2) :=
  ⟨⟨_, _, eq_of_endsOk (a := ()) (by decide +kernel), eq_of_endsOk (a := ()) (by decide +kernel)⟩,
    ⟨_, _, eq_of_endsOk (a := ()) (by decide +kernel), eq_of_endsOk (a := ()) (by decide +kernel)⟩⟩

/-! ## C36 -/

theorem stale_runs : (runP [.register tC, .despawn ⟨1, 5⟩] demo).isSome = true := by decide +kernel
/-- A world in which the component entity of `tC` was despawned. -/
def stale : World := (runP [.register tC, .despawn ⟨1, 5⟩] demo).get stale_runs
theorem stale_reachable : Reachable stale := runP_reachable demo_reachable (Option.some_get stale_runs).symm
def stale' : World := after (addComponent (ent 0) tC (val 2 5) stale)
theorem stale'_type : stale'.typeMap tC = some ⟨1, 5⟩ := by decide +kernel
theorem stale'_not : ¬ stale'.HasComp (ent 0) ⟨1, 5⟩ := by decide +kernel

/-- C36 fails: the component entity of a type that is not in use can be despawned like any entity; afterwards
`add_component` of that type returns without doing anything (and the value is leaked). -/
theorem C36_add_lost : ∃ w w', Reachable w ∧ addComponent (ent 0) tC (val 2 5) w = .ok () w' ∧ w.Alive (ent 0) ∧ w.Row (ent 0) ∧
    (∀ bs, ¬ w'.HasT (ent 0) tC bs) ∧ w'.log = w.log := by
  refine ⟨stale, stale', stale_reachable, eq_of_endsOk (by decide +kernel), by decide +kernel, by decide +kernel, ?_, by decide +kernel⟩
  rintro bs ⟨c, h2, h3⟩
  have h4 : (⟨1, 5⟩ : EcsId) = c := Option.some.inj (stale'_type.symm.trans h2)
  subst h4
  exact stale'_not ⟨bs, h3⟩

/-- C36, the part that holds: it takes effect while the component entity of the type has not been despawned. -/
theorem C36_add_takes_effect_partial {w w' : World} (hw : Reachable w) {e : EcsId} {t : Ty} {v : Bytes} (hv : v.length = t.size)
    (ht : w.TypeAlive t) (hr : addComponent e t v w = .ok () w') : ∀ bs, w'.HasT e t bs ↔ bs = v := by
  obtain ⟨c, h⟩ := C07_add_exact hw hv ht hr
  intro bs
  constructor
  · rintro ⟨c', h1, h2⟩
    rw [h.typ.1] at h1; injection h1 with h1; subst h1
    rw [h.self, if_pos rfl] at h2; exact h2
  · rintro rfl; exact ⟨c, h.typ.1, (h.self c bs).2 (by rw [if_pos rfl])⟩

example := C36_add_takes_effect_partial demo_reachable (e := ent 0) (t := tB) (v := val 8 5) rfl (by decide +kernel) (eq_of_endsOk (by decide +kernel))

end Ellecs.WorldSpec
