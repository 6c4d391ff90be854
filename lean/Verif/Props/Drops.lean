import Verif.Props.Components
/-!
# C34, C35: drops

A history `Hist w d` says in `d.given` which drop calls are owed for the values the program handed to the world; for
`d.taken` (values replaced by a write through a reference) and `d.lost` (values given to an `add_component` that had no
effect) see `Call.deal`.  `w.log` are the drop calls made so far, `dropWorld w` those made by dropping the world.
-/
namespace Ellecs.WorldSpec
open World Demo

/-- The drop calls for values that take up memory. -/
def sized (l : List DropEv) : List DropEv := l.filter (fun ev => !ev.bytes.isEmpty)

/-- The drop calls for zero-sized values. -/
def unsized (l : List DropEv) : List DropEv := l.filter (fun ev => ev.bytes.isEmpty)

theorem sized_append (l l' : List DropEv) : sized (l ++ l') = sized l ++ sized l' := List.filter_append ..
theorem unsized_append (l l' : List DropEv) : unsized (l ++ l') = unsized l ++ unsized l' := List.filter_append ..

theorem elems_lengths {v : UVec} (hv : UVec.Inv v) : ∀ bs ∈ v.elems, bs.length = v.size := by
  intro bs hb
  unfold UVec.elems at hb
  obtain ⟨i, hi, rfl⟩ := List.mem_map.1 hb
  exact UVec.length_elem hv (List.mem_range.1 hi)

theorem filter_evs {v : UVec} (hv : UVec.Inv v) (p : DropEv → Bool) (b : Bool) (hp : ∀ f bs, bs.length = v.size → p ⟨f, bs⟩ = b) :
    (UVec.dropEvs v.info v.elems).filter p = if b then UVec.dropEvs v.info v.elems else [] := by
  unfold UVec.dropEvs
  cases v.info.dropFn with
  | none => cases b <;> rfl
  | some f =>
    simp only
    cases b with
    | true =>
      rw [if_pos rfl, List.filter_eq_self]
      intro ev hev
      obtain ⟨bs, hb, rfl⟩ := List.mem_map.1 hev
      exact hp f bs (elems_lengths hv bs hb)
    | false =>
      rw [if_neg (by decide), List.filter_eq_nil_iff]
      intro ev hev
      obtain ⟨bs, hb, rfl⟩ := List.mem_map.1 hev
      rw [hp f bs (elems_lengths hv bs hb)]
      decide

theorem dropEvs_reverse (info : TypeInfo) (l : List Bytes) : (UVec.dropEvs info l.reverse).Perm (UVec.dropEvs info l) := by
  unfold UVec.dropEvs
  cases info.dropFn with
  | none => exact .refl _
  | some f => exact (List.reverse_perm l).map _

theorem nzEvs_sized {st : List (EcsId × UVec)} (h : ∀ p ∈ st, UVec.Inv p.2) : (nzEvs st).Perm (sized (stEvs st)) := by
  induction st with
  | nil => exact .refl _
  | cons p st ih =>
    have hv := h p List.mem_cons_self
    unfold nzEvs stEvs at *
    rw [List.flatMap_cons, List.flatMap_cons, sized_append]
    refine List.Perm.append ?_ (ih (fun q hq => h q (List.mem_cons_of_mem _ hq)))
    unfold sized
    by_cases hz : p.2.size = 0
    · rw [if_pos hz, filter_evs hv _ false (fun f bs hb => ?_)]
      · exact .refl _
      · rw [hz] at hb; rw [List.eq_nil_of_length_eq_zero hb]; rfl
    · rw [if_neg hz, filter_evs hv _ true (fun f bs hb => ?_)]
      · exact dropEvs_reverse _ _
      · cases bs with
        | nil => exact absurd hb.symm hz
        | cons => rfl

theorem nzEvs_all_sized {st : List (EcsId × UVec)} (h : ∀ p ∈ st, UVec.Inv p.2) : unsized (nzEvs st) = [] := by
  unfold unsized
  rw [List.filter_eq_nil_iff]
  intro ev hev
  have := (List.mem_filter.1 ((nzEvs_sized h).mem_iff.1 hev)).2
  simpa using this

theorem storedEvs_flatten (w : World) : w.storedEvs = stEvs (w.archetypes.map Archetype.storages).flatten := by
  unfold storedEvs
  induction w.archetypes with
  | nil => rfl
  | cons a l ih =>
    unfold stEvs at *
    rw [List.flatMap_cons, List.map_cons, List.flatten_cons, List.flatMap_append, ih]

/-- Dropping a reachable world never fails. -/
theorem dropWorld_spec {w : World} (hw : Reachable w) :
    ∃ evs, dropWorld w = .ok evs ∧ evs.Perm (sized w.storedEvs) ∧ unsized evs = [] ∧ sized evs = evs := by
  have h := hw.sound.inv
  have hv : ∀ p ∈ (w.archetypes.map Archetype.storages).flatten, UVec.Inv p.2 := by
    intro p hp
    obtain ⟨l, hl, hpl⟩ := List.mem_flatten.1 hp
    obtain ⟨a, ha, rfl⟩ := List.mem_map.1 hl
    exact (h.col a ha p hpl).1
  refine ⟨nzEvs (w.archetypes.map Archetype.storages).flatten, ?_, by rw [storedEvs_flatten]; exact nzEvs_sized hv, nzEvs_all_sized hv, ?_⟩
  · unfold dropWorld
    cases hr : w.reuse with
    | none => exact dropStorages_spec hv
    | some r =>
      obtain ⟨ids, d, c⟩ := r
      simp only
      rw [if_pos (h.reuse ids d c hr).2]
      exact dropStorages_spec hv
  · unfold sized
    rw [List.filter_eq_self]
    intro ev hev
    exact (List.mem_filter.1 ((nzEvs_sized hv).mem_iff.1 hev)).2

/-! ## C34 -/

/-- C34: over the life of a world, up to and including its drop, the drop calls for values of non-zero size are exactly
those owed for the values handed to it, each once, except for values that were replaced by writes (those belong to the
writer) and values that `add_component` lost.  The latter is why the theorem is partial, see `C34_leak`. -/
theorem C34_dropped_once_partial {w : World} {d : Deal} (hd : Hist w d) :
    ∃ evs, dropWorld w = .ok evs ∧ (sized (w.log ++ evs ++ d.taken ++ d.lost)).Perm (sized d.given) := by
  obtain ⟨evs, h1, h2, _, h4⟩ := dropWorld_spec hd.reachable
  refine ⟨evs, h1, ?_⟩
  have := hd.conserved.filter (fun ev => !ev.bytes.isEmpty)
  refine List.Perm.trans ?_ this
  show (sized _).Perm (sized _)
  simp only [sized_append]
  refine List.Perm.append_right _ (List.Perm.append_right _ (List.Perm.append_left _ ?_))
  rw [h4]; exact h2

/-- C34: no value of any size is dropped more often than it was handed over. -/
theorem C34_never_twice {w : World} {d : Deal} (hd : Hist w d) :
    ∃ evs, dropWorld w = .ok evs ∧ ∀ ev, (w.log ++ evs ++ d.taken ++ d.lost).count ev ≤ d.given.count ev := by
  obtain ⟨evs, h1, h2, _, h4⟩ := dropWorld_spec hd.reachable
  refine ⟨evs, h1, fun ev => ?_⟩
  have e1 := List.perm_iff_count.1 hd.conserved ev
  have e2 := List.perm_iff_count.1 h2 ev
  have e3 : (sized w.storedEvs).count ev ≤ w.storedEvs.count ev := (List.filter_sublist).count_le _
  simp only [List.count_append] at *
  omega

/-- C34: without values lost by `add_component` nothing leaks. -/
theorem C34_no_leak {w : World} {d : Deal} (hd : Hist w d) (hl : d.lost = []) :
    ∃ evs, dropWorld w = .ok evs ∧ (sized (w.log ++ evs ++ d.taken)).Perm (sized d.given) := by
  obtain ⟨evs, h1, h2⟩ := C34_dropped_once_partial hd
  rw [hl, List.append_nil] at h2
  exact ⟨evs, h1, h2⟩

/-- C34 fails: `add_component` of a type whose component entity was despawned returns and the value is never dropped. -/
theorem C34_leak : ∃ (w : World) (d : Deal) (evs : List DropEv) (ev : DropEv), Hist w d ∧ dropWorld w = .ok evs ∧
    ev.bytes = val 2 5 ∧ (w.log ++ evs ++ d.taken).count ev < d.given.count ev := by
  obtain ⟨d0, h0⟩ := stale_reachable.hist
  have hx : Call.exec (.addComponent (ent 0) tC (val 2 5)) stale = .ok () stale' := by
    show addComponent (ent 0) tC (val 2 5) stale = .ok () stale'
    exact eq_of_endsOk (by decide +kernel)
  have h1 : Hist stale' (d0.append ⟨[⟨.generic tC, val 2 5⟩], [], [⟨.generic tC, val 2 5⟩]⟩) := by
    refine .ok (.addComponent (ent 0) tC (val 2 5)) h0 (okB_ok stale_reachable.sound (by decide +kernel)) hx (by decide +kernel) ?_
    exact ⟨rfl, rfl, Or.inr ⟨rfl, ⟨1, 5⟩, stale'_type, by decide +kernel⟩⟩
  obtain ⟨evs, h2, h3⟩ := C34_never_twice h1
  refine ⟨_, _, evs, ⟨.generic tC, val 2 5⟩, h1, h2, rfl, Nat.lt_of_lt_of_le ?_ (h3 _)⟩
  have : 0 < (d0.append ⟨[⟨.generic tC, val 2 5⟩], [], [⟨.generic tC, val 2 5⟩]⟩).lost.count ⟨.generic tC, val 2 5⟩ :=
    List.count_pos_iff.2 (List.mem_append_right _ List.mem_cons_self)
  simp only [List.count_append] at *
  omega

/-- The history of `demo`, in which `B` was dropped by `remove_component` and by `despawn`. -/
example : (∃ d, Hist demo d) ∧ demo.log = [⟨.generic tB, val 8 2⟩, ⟨.generic tA, val 4 5⟩, ⟨.generic tB, val 8 6⟩] ∧
    (dropWorld demo).toOption = some [⟨.generic tA, val 4 7⟩, ⟨.generic tB, val 8 8⟩, ⟨.generic tA, val 4 3⟩, ⟨.generic tA, val 4 1⟩] :=
  ⟨demo_reachable.hist, by decide +kernel, by decide +kernel⟩

/-! ## C35 -/

/-- C35, the part that holds: zero-sized values are dropped by `remove_component` and `despawn` like all others; so if at the
end no entity has a zero-sized component with a drop function, each was dropped exactly once.
Missing: values that are in the world when it is dropped, see `C35_leak`. -/
theorem C35_zero_sized_dropped_partial {w : World} {d : Deal} (hd : Hist w d)
    (hz : ∀ e c m, w.Has e c [] → w.InfoIs c m → m.dropFn = none) :
    (unsized (w.log ++ d.taken ++ d.lost)).Perm (unsized d.given) := by
  have h := hd.reachable.sound.inv
  have hs : unsized w.storedEvs = [] := by
    unfold unsized
    rw [List.filter_eq_nil_iff]
    intro ev hev hb
    unfold storedEvs at hev
    obtain ⟨a, ha, hev⟩ := List.mem_flatMap.1 hev
    obtain ⟨⟨c, v⟩, hp, hev⟩ := List.mem_flatMap.1 hev
    unfold UVec.dropEvs at hev
    cases hf : v.info.dropFn with
    | none => simp only [hf] at hev; cases hev
    | some f =>
      simp only [hf] at hev
      obtain ⟨bs, hbs, rfl⟩ := List.mem_map.1 hev
      have hnil : bs = [] := List.isEmpty_iff.1 hb
      subst hnil
      obtain ⟨r, hr⟩ := List.mem_iff_getElem?.1 hbs
      obtain ⟨hv1, hv2, hv3⟩ := h.col a ha (c, v) hp
      have hlt : r < a.entities.length := by
        have h1 := (List.getElem?_eq_some_iff.1 hr).1
        rw [UVec.length_elems] at h1
        have hv2 : v.count = a.entities.length := hv2
        omega
      obtain ⟨k, hk⟩ := List.mem_iff_getElem?.1 ha
      have hhas : w.Has a.entities[r] c [] := ⟨k, r, a, v, hk, List.getElem?_eq_getElem hlt, hp, hr⟩
      obtain ⟨_, m, hm1, hm2⟩ := infoFn_some.1 hv3
      obtain ⟨p, hpp⟩ := has_points hhas
      obtain ⟨m', hm'⟩ := hpp.info h
      have := ((infoIs_iff h).1 hm').2
      rw [hm1] at this; injection this with this; subst this
      have h0 := hz _ _ _ hhas hm'
      rw [← hm2] at hf
      rw [show m.info.dropFn = m.dropFn from rfl, h0] at hf
      cases hf
  have := hd.conserved.filter (fun ev => ev.bytes.isEmpty)
  refine List.Perm.trans ?_ this
  show (unsized _).Perm (unsized _)
  simp only [unsized_append, hs, List.append_nil]
  exact .refl _

/-- C35 fails: a zero-sized component of an entity that is alive when the world is dropped is never dropped. -/
theorem C35_leak : ∃ (w : World) (d : Deal) (evs : List DropEv) (ev : DropEv), Hist w d ∧ dropWorld w = .ok evs ∧
    ev.bytes = [] ∧ (w.log ++ evs ++ d.taken ++ d.lost).count ev < d.given.count ev := by
  obtain ⟨d, hd⟩ := demo_reachable.hist
  obtain ⟨evs, h1, _, h3, _⟩ := dropWorld_spec demo_reachable
  refine ⟨demo, d, evs, ⟨.generic tZ, []⟩, hd, h1, rfl, ?_⟩
  have e1 := List.perm_iff_count.1 hd.conserved ⟨.generic tZ, []⟩
  have e2 : demo.storedEvs.count ⟨.generic tZ, []⟩ = 1 := by decide +kernel
  have e3 : evs.count ⟨.generic tZ, []⟩ = 0 := by
    apply List.count_eq_zero_of_not_mem
    intro hm
    have : (⟨.generic tZ, []⟩ : DropEv) ∈ unsized evs := List.mem_filter.2 ⟨hm, rfl⟩
    rw [h3] at this; cases this
  simp only [List.count_append] at *
  omega

theorem unz_runs : (runP [.removeComponent (ent 0) tZ] demo).isSome = true := by decide +kernel
/-- A world in which the zero-sized component was removed again. -/
def unz : World := (runP [.removeComponent (ent 0) tZ] demo).get unz_runs
theorem unz_reachable : Reachable unz := runP_reachable demo_reachable (Option.some_get unz_runs).symm

theorem unz_no_unsized (e c : EcsId) : ¬ unz.Has e c [] := by
  rintro ⟨k, r, a, v, h1, h2, h3, h4⟩
  have h : unz.archetypes.all (fun a => a.storages.all (fun p => p.2.count == 0 || p.2.size != 0)) = true := by decide +kernel
  have ha := List.mem_of_getElem? h1
  have hv := (unz_reachable.sound.inv.col a ha (c, v) h3).1
  have := List.all_eq_true.1 (List.all_eq_true.1 h a ha) (c, v) h3
  simp only [Bool.or_eq_true, beq_iff_eq, bne_iff_ne] at this
  have hl := elems_lengths hv [] (List.mem_of_getElem? h4)
  have hr := (List.getElem?_eq_some_iff.1 h4).1
  rw [UVec.length_elems] at hr
  simp only [List.length_nil] at hl
  omega

/-- In `unz` the hypothesis of `C35_zero_sized_dropped_partial` is met, and the zero-sized value was dropped. -/
example : (∃ d, Hist unz d) ∧ (∀ e c m, unz.Has e c [] → unz.InfoIs c m → m.dropFn = none) ∧ unz.log.contains ⟨.generic tZ, []⟩ = true :=
  ⟨unz_reachable.hist, fun e c _ h => absurd h (unz_no_unsized e c), by decide +kernel⟩

/-! ### The theorems at work -/

example {d : Deal} (h : World.Hist demo d) := C34_dropped_once_partial h
example {d : Deal} (h : World.Hist demo d) := C34_never_twice h
example {d : Deal} (h : World.Hist demo d) := C34_no_leak h
example {d : Deal} (h : World.Hist unz d) := C35_zero_sized_dropped_partial h fun e c _ h => absurd h (unz_no_unsized e c)

end Ellecs.WorldSpec
