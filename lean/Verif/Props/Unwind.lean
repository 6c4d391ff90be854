import Verif.Proofs.Unwind
import Verif.Props.Drops
/-!
# C53: destructors that panic

`despawnU pan`, `removeComponentDynamicU pan`, `removeComponentU pan` and `dropWorldU pan` are the calls when a drop call
`ev` made after the drop calls `past` unwinds if `pan past ev = true`; `despawn`, ... are the same calls when none does.  A call that is left by unwinding ends
with `.dropPanic`.
-/
namespace Ellecs.WorldSpec
open World Demo

theorem newDrops_eq {w w' : World} {evs : List DropEv} (h : w'.log = w.log ++ evs) : newDrops w w' = evs := by
  unfold newDrops; rw [h, List.drop_left]

theorem cutOff_cut {pan : Panics} {evs full : List DropEv} (h : CutOff pan evs full) :
    evs = cut pan full ∧ ¬ pan.Quiet full := ⟨h.2, not_quiet_iff.2 h.1⟩

/-- C53: `despawn` runs the destructors of the entity's components until one panics.  If none does, it is the call without
panics; if one does, the call unwinds and no further destructor is run. -/
theorem C53_despawn {w : World} (hw : Reachable w) (pan : Panics) (e : EcsId) :
    (∀ f w', despawn e w = .error f w' → despawnU pan e w = .error f w') ∧
    (∀ b w', despawn e w = .ok b w' → pan.Quiet (newDrops w w') → despawnU pan e w = .ok b w') ∧
    (∀ b w', despawn e w = .ok b w' → ¬ pan.Quiet (newDrops w w') →
      ∃ w'', despawnU pan e w = .error .dropPanic w'' ∧ newDrops w w'' = cut pan (newDrops w w')) := by
  have h := despawnU_spec (pan := pan) hw.sound.inv e
  unfold Tri at h
  cases hr : despawnU pan e w with
  | ok b w' =>
    rw [hr] at h
    obtain ⟨h1, evs, h2, h3⟩ := h
    refine ⟨?_, ?_, ?_⟩
    · intro f w2 h'; rw [h1] at h'; cases h'
    · intro b2 w2 h' _; rw [h1] at h'; cases h'; rfl
    · intro b2 w2 h' hp
      rw [h1] at h'; cases h'
      rw [newDrops_eq h2] at hp
      exact absurd (quiet_iff.2 h3) hp
  | error f w' =>
    rw [hr] at h
    rcases h with ⟨h0, h1, rfl⟩ | ⟨rfl, evs, w2, full, h1, h2, h3, h4⟩
    · refine ⟨?_, ?_, ?_⟩
      · intro f2 w2 h'; rw [h1] at h'; cases h'; rfl
      · intro b2 w2 h'; rw [h1] at h'; cases h'
      · intro b2 w2 h'; rw [h1] at h'; cases h'
    · obtain ⟨q1, q2⟩ := cutOff_cut h4
      refine ⟨?_, ?_, ?_⟩
      · intro f2 w3 h'; rw [h2] at h'; cases h'
      · intro b2 w3 h' hq; rw [h2] at h'; cases h'
        rw [newDrops_eq h3] at hq
        exact absurd hq q2
      · intro b2 w3 h' hq; rw [h2] at h'; cases h'
        exact ⟨w', rfl, by rw [newDrops_eq h3, newDrops_eq h1.log, q1]⟩

theorem removeU_inv {w : World} (hi : Inv w) (pan : Panics) (e c : EcsId) :
    (∀ f w', removeComponentDynamic e c w = .error f w' → removeComponentDynamicU pan e c w = .error f w') ∧
    (∀ w', removeComponentDynamic e c w = .ok () w' → pan.Quiet (newDrops w w') →
      removeComponentDynamicU pan e c w = .ok () w') ∧
    (∀ w', removeComponentDynamic e c w = .ok () w' → ¬ pan.Quiet (newDrops w w') →
      ∃ w'', removeComponentDynamicU pan e c w = .error .dropPanic w'' ∧ newDrops w w'' = newDrops w w') := by
  have h := removeDynU_spec (pan := pan) hi e c
  unfold Tri at h
  cases hr : removeComponentDynamicU pan e c w with
  | ok b w' =>
    rw [hr] at h
    obtain ⟨h1, evs, h2, h3⟩ := h
    refine ⟨?_, ?_, ?_⟩
    · intro f w2 h'; rw [h1] at h'; cases h'
    · intro w2 h' _; rw [h1] at h'; cases h'; rfl
    · intro w2 h' hp
      rw [h1] at h'; cases h'
      rw [newDrops_eq h2] at hp
      exact absurd (quiet_iff.2 h3) hp
  | error f w' =>
    rw [hr] at h
    rcases h with ⟨h0, h1⟩ | ⟨rfl, evs, w2, h1, h2, h3, h4⟩
    · refine ⟨?_, ?_, ?_⟩
      · intro f2 w2 h'; rw [h1] at h'; cases h'; rfl
      · intro w2 h'; rw [h1] at h'; cases h'
      · intro w2 h'; rw [h1] at h'; cases h'
    · obtain ⟨q1, q2⟩ := cutOff_cut h4
      refine ⟨?_, ?_, ?_⟩
      · intro f2 w3 h'; rw [h2] at h'; cases h'
      · intro w3 h' hq; rw [h2] at h'; cases h'
        rw [newDrops_eq h3] at hq
        exact absurd hq q2
      · intro w3 h' hq; rw [h2] at h'; cases h'
        exact ⟨w', rfl, by rw [newDrops_eq h3, newDrops_eq h1.log]⟩

/-- C53: the same for `remove_component_dynamic`. -/
theorem C53_remove_dynamic {w : World} (hw : Reachable w) (pan : Panics) (e c : EcsId) :
    (∀ f w', removeComponentDynamic e c w = .error f w' → removeComponentDynamicU pan e c w = .error f w') ∧
    (∀ w', removeComponentDynamic e c w = .ok () w' → pan.Quiet (newDrops w w') →
      removeComponentDynamicU pan e c w = .ok () w') ∧
    (∀ w', removeComponentDynamic e c w = .ok () w' → ¬ pan.Quiet (newDrops w w') →
      ∃ w'', removeComponentDynamicU pan e c w = .error .dropPanic w'' ∧ newDrops w w'' = newDrops w w') := removeU_inv hw.sound.inv pan e c

/-- C53: the same for `remove_component`. -/
theorem C53_remove {w : World} (hw : Reachable w) (pan : Panics) (e : EcsId) (t : Ty) :
    (∀ f w', removeComponent e t w = .error f w' → removeComponentU pan e t w = .error f w') ∧
    (∀ w', removeComponent e t w = .ok () w' → pan.Quiet (newDrops w w') → removeComponentU pan e t w = .ok () w') ∧
    (∀ w', removeComponent e t w = .ok () w' → ¬ pan.Quiet (newDrops w w') →
      ∃ w'', removeComponentU pan e t w = .error .dropPanic w'' ∧ newDrops w w'' = newDrops w w') := by
  have hi := hw.sound.inv
  rcases isAlive_answer hi e with ⟨h1, h2⟩ | ⟨h1, h2⟩ | ⟨h1, h2⟩
  · have e1 : removeComponent e t w = .error .noGeneration w := by
      unfold removeComponent; simp only [bind, EStateM.bind, get, getThe, MonadStateOf.get, EStateM.get, liftE, h1]
    have e2 : removeComponentU pan e t w = .error .noGeneration w := by
      unfold removeComponentU; simp only [bind, EStateM.bind, get, getThe, MonadStateOf.get, EStateM.get, liftE, h1]
    rw [e1, e2]
    exact ⟨fun _ _ h => h, fun _ h => (by cases h), fun _ h => (by cases h)⟩
  · have e1 : removeComponent e t w = .error .notAlive w := by
      unfold removeComponent; simp only [bind, EStateM.bind, get, getThe, MonadStateOf.get, EStateM.get, liftE, h1]; rfl
    have e2 : removeComponentU pan e t w = .error .notAlive w := by
      unfold removeComponentU; simp only [bind, EStateM.bind, get, getThe, MonadStateOf.get, EStateM.get, liftE, h1]; rfl
    rw [e1, e2]
    exact ⟨fun _ _ h => h, fun _ h => (by cases h), fun _ h => (by cases h)⟩
  · have e1 : removeComponent e t w = (getOrCreate t >>= fun c => removeComponentDynamic e c) w := by
      unfold removeComponent; simp only [bind, EStateM.bind, get, getThe, MonadStateOf.get, EStateM.get, liftE, h1]; rfl
    have e2 : removeComponentU pan e t w = (getOrCreate t >>= fun c => removeComponentDynamicU pan e c) w := by
      unfold removeComponentU; simp only [bind, EStateM.bind, get, getThe, MonadStateOf.get, EStateM.get, liftE, h1]; rfl
    rw [e1, e2]
    have hg := getOrCreate_spec hi hw.sound.nowrap.ready t
    unfold Tri at hg
    simp only [bind, EStateM.bind]
    cases hx : getOrCreate t w with
    | error f w1 => exact ⟨fun _ _ h => h, fun _ h => (by cases h), fun _ h => (by cases h)⟩
    | ok c w1 =>
      rw [hx] at hg
      have hl : ∀ w', newDrops w w' = newDrops w1 w' := fun w' => by unfold newDrops; rw [hg.1.log]
      simp only [hl]
      exact removeU_inv hg.1.inv pan e c

/-- Only the removal itself can unwind in `remove_component`. -/
theorem removeU_dyn {w w' : World} (hw : Reachable w) {pan : Panics} {e : EcsId} {t : Ty}
    (h : removeComponentU pan e t w = .error .dropPanic w') :
    ∃ c, w.typeMap t = some c ∧ removeComponentDynamicU pan e c w = .error .dropPanic w' := by
  have hi := hw.sound.inv
  suffices hs : Tri (removeComponentU pan e t) w (fun _ _ => True)
      (fun f w' => f = .dropPanic → ∃ c, w.typeMap t = some c ∧ removeComponentDynamicU pan e c w = .error .dropPanic w') by
    unfold Tri at hs
    rw [h] at hs
    exact hs rfl
  unfold removeComponentU
  simp only [tri_bind, tri_get, tri_liftE]
  rcases isAlive_answer hi e with ⟨h1, h2⟩ | ⟨h1, h2⟩ | ⟨h1, h2⟩
  · rw [h1]; intro hh; cases hh
  · rw [h1]; simp only [Bool.not_false, if_true]; intro hh; cases hh
  · rw [h1]
    simp only [Bool.not_true, Bool.false_eq_true, if_false, tri_bind]
    refine (getOrCreate_spec hi hw.sound.nowrap.ready t).imp ?_ ?_
    · rintro c w1 ⟨g1, g2, g3, g4, g5⟩
      cases ht : w.typeMap t with
      | some c' =>
        have e1 := g1.typ t c' ht
        rw [g2] at e1; injection e1 with e1; subst e1
        have e2 := g3 ht
        subst e2
        unfold Tri
        cases hr : removeComponentDynamicU pan e c w1 with
        | ok => trivial
        | error f w2 => intro hf; subst hf; exact ⟨c, rfl, hr⟩
      | none =>
        refine (removeDynU_spec (pan := pan) g1.inv e c).imp (fun _ _ _ => trivial) ?_
        rintro f w2 (⟨h3, _⟩ | ⟨_, evs, w3, h3, h4, h5, h6⟩) hf
        · exact absurd hf h3
        · exfalso
          have h7 : evs ≠ [] := by rw [h6.2]; exact cut_ne_nil h6.1
          have h8 := removeDyn_spec g1.inv e c
          unfold Tri at h8
          rw [h4] at h8
          rcases h8 with ⟨_, h8⟩ | ⟨_, _, _, m, bs, _, h8, _⟩
          · subst h8
            exact h7 (List.self_eq_append_right.1 h5)
          · obtain ⟨k, r, a, v, b1, b2, b3, b4⟩ := (g1.has e c bs).1 h8
            have ha := List.mem_of_getElem? b1
            have hc : c ∈ a.compIds := by
              rw [← (hi.shape a ha).ids]; exact List.mem_map_of_mem (f := Prod.fst) b3
            exact g1.unknown c ⟨t, ht, g2⟩ (hi.live_comp ha hc).1.kept
    · rintro f w1 ⟨rfl, _⟩ hh; cases hh

/-! ### No value is dropped twice or lost -/

theorem unwound_once {w w' : World} {d : Deal} (hd : Hist w d) {pan : Panics} {evs : List DropEv}
    (hu : Unwound pan w w' evs) :
    ∃ rest, dropWorld w' = .ok rest ∧ (sized (w'.log ++ rest ++ d.taken ++ d.lost)).Perm (sized d.given) := by
  refine ⟨_, hu.ok.dropWorld, ?_⟩
  have h1 := nzEvs_sized hu.ok.flat
  rw [← storedEvs_flatten] at h1
  have h2 : sized (nzEvs (w'.archetypes.map Archetype.storages).flatten) = nzEvs (w'.archetypes.map Archetype.storages).flatten := by
    unfold sized
    rw [List.filter_eq_self]
    intro ev hev
    exact (List.mem_filter.1 (h1.mem_iff.1 hev)).2
  have h3 := hd.conserved.filter (fun ev => !ev.bytes.isEmpty)
  have h4 := hu.kept.filter (fun ev => !ev.bytes.isEmpty)
  change (sized _).Perm (sized _) at h3
  change (sized _).Perm (sized _) at h4
  rw [hu.log]
  simp only [sized_append] at *
  rw [h2]
  rw [List.perm_iff_count] at *
  intro ev
  have a1 := h1 ev
  have a3 := h3 ev
  have a4 := h4 ev
  simp only [List.count_append] at *
  omega

/-- C53, the part that holds: when a destructor panics in `despawn`, every value that was handed to the world has been dropped
or is still stored, and dropping the world afterwards drops the latter: over the whole life each value of non-zero size is
dropped exactly once (compare `C34_dropped_once_partial`).
Missing: the world is not usable any more, see `C53_despawn_confused`. -/
theorem C53_despawn_once_partial {w w' : World} {d : Deal} (hd : Hist w d) (pan : Panics) (e : EcsId)
    (h : despawnU pan e w = .error .dropPanic w') :
    ∃ rest, dropWorld w' = .ok rest ∧ (sized (w'.log ++ rest ++ d.taken ++ d.lost)).Perm (sized d.given) := by
  have hs := despawnU_spec (pan := pan) hd.reachable.sound.inv e
  unfold Tri at hs
  rw [h] at hs
  rcases hs with ⟨h0, _⟩ | ⟨_, evs, w2, full, h1, _⟩
  · exact absurd rfl h0
  · exact unwound_once hd h1

/-- C53, the part that holds: the same for `remove_component_dynamic`.
Missing: the world is not usable any more, see `C53_remove_unsound`. -/
theorem C53_remove_dynamic_once_partial {w w' : World} {d : Deal} (hd : Hist w d) (pan : Panics) (e c : EcsId)
    (h : removeComponentDynamicU pan e c w = .error .dropPanic w') :
    ∃ rest, dropWorld w' = .ok rest ∧ (sized (w'.log ++ rest ++ d.taken ++ d.lost)).Perm (sized d.given) := by
  have hs := removeDynU_spec (pan := pan) hd.reachable.sound.inv e c
  unfold Tri at hs
  rw [h] at hs
  rcases hs with ⟨h0, _⟩ | ⟨_, evs, w2, h1, _⟩
  · exact absurd rfl h0
  · exact unwound_once hd h1

/-- C53, the part that holds: the same for `remove_component`. -/
theorem C53_remove_once_partial {w w' : World} {d : Deal} (hd : Hist w d) (pan : Panics) (e : EcsId) (t : Ty)
    (h : removeComponentU pan e t w = .error .dropPanic w') :
    ∃ rest, dropWorld w' = .ok rest ∧ (sized (w'.log ++ rest ++ d.taken ++ d.lost)).Perm (sized d.given) := by
  obtain ⟨c, _, h1⟩ := removeU_dyn hd.reachable h
  exact C53_remove_dynamic_once_partial hd pan e c h1

/-! ### Dropping the world -/

theorem cut_count (pan : Panics) (l : List DropEv) (ev : DropEv) : (cut pan l).count ev ≤ l.count ev := by
  obtain ⟨post, h⟩ := cut_prefix pan l
  conv => rhs; rw [h]
  rw [List.count_append]
  omega

/-- A column in which a destructor panics. -/
theorem fires_nz {pan : Panics} {v : UVec} (h : pan.fires v.nz = true) : v.nz = UVec.dropEvs v.info v.elems.reverse := by
  unfold UVec.nz at h ⊢
  split at h
  · cases h
  · rename_i hz; rw [if_neg hz]

theorem mem_col {w : World} {p : EcsId × UVec} (h : p ∈ (w.archetypes.map Archetype.storages).flatten) :
    ∃ a ∈ w.archetypes, p ∈ a.storages := by
  obtain ⟨l, hl, hpl⟩ := List.mem_flatten.1 h
  obtain ⟨a, ha, rfl⟩ := List.mem_map.1 hl
  exact ⟨a, ha, hpl⟩

theorem dropWorldU_any {w : World} (hd : Droppable w) (pan : Panics) :
    ∃ evs r rest, dropWorldU pan w = .ok (evs, r) ∧ dropWorld w = .ok rest ∧ rest.Perm (sized w.storedEvs) ∧
      (∀ ev, evs.count ev ≤ (sized w.storedEvs).count ev) ∧ (r = .done ↔ pan.Quiet rest) ∧ (r = .done → evs = rest) := by
  have h5 := nzEvs_sized hd.flat
  rw [← storedEvs_flatten] at h5
  rw [dropWorldU_eq hd, hd.dropWorld]
  have hc := fun ev => List.perm_iff_count.1 h5 ev
  rcases dropStoragesU_false (pan := pan) hd.flat with ⟨e1, e2⟩ | ⟨s₁, p, s₂, e0, e1, e2, evs, r, e3, e4⟩
  · exact ⟨_, _, _, e2, rfl, h5, fun ev => by rw [hc]; exact Nat.le_refl _, ⟨fun _ => quiet_iff.2 e1, fun _ => rfl⟩, fun _ => rfl⟩
  · have hs : nzEvs (w.archetypes.map Archetype.storages).flatten = nzEvs s₁ ++ (p.2.nz ++ nzEvs s₂) := by
      rw [e0, nzEvs_append, nzEvs_cons]
    have hr : r ≠ .done ∧ ∀ ev, evs.count ev ≤ (nzEvs s₂).count ev := by
      rcases dropStoragesU_true (pan := pan.after (nzEvs s₁ ++ cut (pan.after (nzEvs s₁)) p.2.nz))
        (fun q hq => hd.flat q (by rw [e0]; exact List.mem_append_right _ (List.mem_cons_of_mem _ hq)) : ∀ q ∈ s₂, UVec.Inv q.2)
        with ⟨_, f⟩ | ⟨t₁, q, t₂, rfl, _, _, f⟩
      · rw [e3] at f; cases f
        exact ⟨by decide, fun _ => Nat.le_refl _⟩
      · rw [e3] at f; cases f
        refine ⟨by decide, fun ev => ?_⟩
        have := cut_count ((pan.after (nzEvs s₁ ++ cut (pan.after (nzEvs s₁)) p.2.nz)).after (nzEvs t₁)) q.2.nz ev
        rw [nzEvs_append, nzEvs_cons]
        simp only [List.count_append]
        omega
    refine ⟨_, _, _, e4, rfl, h5, ?_, ⟨fun h => absurd h hr.1, ?_⟩, fun h => absurd h hr.1⟩
    · intro ev
      rw [← hc, hs]
      have a1 := cut_count (pan.after (nzEvs s₁)) p.2.nz ev
      have a2 := hr.2 ev
      simp only [List.count_append] at *
      omega
    · intro hq
      rw [quiet_iff, hs, fires_append, fires_append, e2, Bool.true_or, Bool.or_true] at hq
      cases hq

/-- C53: dropping a world never drops a value twice, however many destructors panic, and is never undefined behaviour; it ends
normally if and only if no destructor panics in the order in which a drop without panics runs them, and then it is that drop. -/
theorem C53_drop_world {w : World} (hw : Reachable w) (pan : Panics) :
    ∃ evs r rest, dropWorldU pan w = .ok (evs, r) ∧ dropWorld w = .ok rest ∧ rest.Perm (sized w.storedEvs) ∧
      (∀ ev, evs.count ev ≤ (sized w.storedEvs).count ev) ∧ (r = .done ↔ pan.Quiet rest) ∧ (r = .done → evs = rest) :=
  dropWorldU_any hw.sound.inv.droppable pan

/-- C53: also when further destructors panic while the world that an unwound call left behind is dropped, no value is dropped
twice, and nothing is undefined behaviour. -/
theorem C53_unwound_drop {w w' : World} {d : Deal} (hd : Hist w d) (pan pan' : Panics)
    (h : (∃ e, despawnU pan e w = .error .dropPanic w') ∨ (∃ e c, removeComponentDynamicU pan e c w = .error .dropPanic w') ∨
      ∃ e t, removeComponentU pan e t w = .error .dropPanic w') :
    ∃ evs r, dropWorldU pan' w' = .ok (evs, r) ∧
      ∀ ev, (sized (w'.log ++ evs ++ d.taken ++ d.lost)).count ev ≤ (sized d.given).count ev := by
  have hu : ∃ evs, Unwound pan w w' evs := by
    have hdyn : ∀ e c, removeComponentDynamicU pan e c w = .error .dropPanic w' → ∃ evs, Unwound pan w w' evs := by
      intro e c h
      have hs := removeDynU_spec (pan := pan) hd.reachable.sound.inv e c
      unfold Tri at hs
      rw [h] at hs
      rcases hs with ⟨h0, _⟩ | ⟨_, evs, _, h1, _⟩
      · exact absurd rfl h0
      · exact ⟨evs, h1⟩
    rcases h with ⟨e, h⟩ | ⟨e, c, h⟩ | ⟨e, t, h⟩
    · have hs := despawnU_spec (pan := pan) hd.reachable.sound.inv e
      unfold Tri at hs
      rw [h] at hs
      rcases hs with ⟨h0, _⟩ | ⟨_, evs, _, _, h1, _⟩
      · exact absurd rfl h0
      · exact ⟨evs, h1⟩
    · exact hdyn e c h
    · obtain ⟨c, _, h1⟩ := removeU_dyn hd.reachable h
      exact hdyn e c h1
  obtain ⟨_, hu⟩ := hu
  obtain ⟨rest, g1, g2⟩ := unwound_once hd hu
  obtain ⟨evs, r, rest', h1, h2, h3, h4, -, -⟩ := dropWorldU_any hu.ok pan'
  rw [g1] at h2
  cases h2
  refine ⟨evs, r, h1, fun ev => ?_⟩
  have a1 := List.perm_iff_count.1 g2 ev
  have a2 := h4 ev
  rw [← List.perm_iff_count.1 h3 ev] at a2
  have a3 : (sized evs).count ev ≤ (sized rest).count ev := by
    have hf : ∀ l : List DropEv, (sized l).count ev = if ev.bytes.isEmpty then 0 else l.count ev := by
      intro l
      unfold sized
      split
      · rename_i hb
        exact List.count_eq_zero.2 (fun hm => by have := (List.mem_filter.1 hm).2; rw [hb] at this; cases this)
      · rename_i hb
        exact List.count_filter (p := fun x : DropEv => !x.bytes.isEmpty) (a := ev) (by simpa using hb)
    rw [hf, hf]
    split
    · exact Nat.le_refl _
    · exact a2
  simp only [sized_append, List.count_append] at *
  omega

/-- C53: when dropping a world unwinds (instead of aborting), the values that are never dropped are in one column, behind the
value whose destructor panicked: every value of every other component or table is dropped, in the usual order. -/
theorem C53_drop_world_lost {w : World} (hw : Reachable w) (pan : Panics) (evs : List DropEv)
    (h : dropWorldU pan w = .ok (evs, .unwound)) :
    ∃ a ∈ w.archetypes, ∃ p ∈ a.storages, ∃ pre col post lost, col = UVec.dropEvs p.2.info p.2.elems.reverse ∧
      dropWorld w = .ok (pre ++ col ++ post) ∧ evs = pre ++ cut (pan.after pre) col ++ post ∧
      col = cut (pan.after pre) col ++ lost ∧ (evs ++ lost).Perm (sized w.storedEvs) ∧
      pan.Quiet pre ∧ ¬ (pan.after pre).Quiet col ∧ (pan.after (pre ++ cut (pan.after pre) col)).Quiet post := by
  have hd := hw.sound.inv.droppable
  have h5 := nzEvs_sized hd.flat
  rw [← storedEvs_flatten] at h5
  rw [dropWorldU_eq hd] at h
  rw [hd.dropWorld]
  rcases dropStoragesU_false (pan := pan) hd.flat with ⟨_, e2⟩ | ⟨s₁, p, s₂, e0, e1, e2, evs', r, e3, e4⟩
  · rw [h] at e2; cases e2
  · rw [h] at e4; cases e4
    rcases dropStoragesU_true (pan := pan.after (nzEvs s₁ ++ cut (pan.after (nzEvs s₁)) p.2.nz))
        (fun q hq => hd.flat q (by rw [e0]; exact List.mem_append_right _ (List.mem_cons_of_mem _ hq)) : ∀ q ∈ s₂, UVec.Inv q.2)
        with ⟨f0, f⟩ | ⟨_, _, _, _, _, _, f⟩
    · rw [e3] at f; cases f
      obtain ⟨a, ha, hp⟩ := mem_col (w := w) (p := p) (by rw [e0]; simp)
      have hs : nzEvs (w.archetypes.map Archetype.storages).flatten = nzEvs s₁ ++ p.2.nz ++ nzEvs s₂ := by
        rw [e0, nzEvs_append, nzEvs_cons, List.append_assoc]
      obtain ⟨lost, hl⟩ := cut_prefix (pan.after (nzEvs s₁)) p.2.nz
      refine ⟨a, ha, p, hp, nzEvs s₁, p.2.nz, nzEvs s₂, lost, fires_nz e2, by rw [hs], rfl, hl, ?_, quiet_iff.2 e1,
        not_quiet_iff.2 e2, quiet_iff.2 f0⟩
      refine List.Perm.trans ?_ h5
      rw [hs, List.perm_iff_count]
      intro z
      have := congrArg (List.count z) hl
      simp only [List.count_append] at *
      omega
    · rw [e3] at f; cases f

/-- C53: dropping a world aborts the process exactly where a second column is left because a destructor panics: up to that call
everything is dropped in the usual order, except what is behind the first value whose destructor panicked. -/
theorem C53_drop_world_aborted {w : World} (hw : Reachable w) (pan : Panics) (evs : List DropEv)
    (h : dropWorldU pan w = .ok (evs, .aborted)) :
    ∃ p p' pre col mid col' post, (∃ a ∈ w.archetypes, p ∈ a.storages) ∧ (∃ a ∈ w.archetypes, p' ∈ a.storages) ∧
      col = UVec.dropEvs p.2.info p.2.elems.reverse ∧ col' = UVec.dropEvs p'.2.info p'.2.elems.reverse ∧
      dropWorld w = .ok (pre ++ col ++ mid ++ col' ++ post) ∧
      evs = pre ++ cut (pan.after pre) col ++ mid ++ cut (pan.after (pre ++ cut (pan.after pre) col ++ mid)) col' ∧
      pan.Quiet pre ∧ ¬ (pan.after pre).Quiet col ∧ (pan.after (pre ++ cut (pan.after pre) col)).Quiet mid ∧
      ¬ (pan.after (pre ++ cut (pan.after pre) col ++ mid)).Quiet col' := by
  have hd := hw.sound.inv.droppable
  rw [dropWorldU_eq hd] at h
  rw [hd.dropWorld]
  rcases dropStoragesU_false (pan := pan) hd.flat with ⟨_, e2⟩ | ⟨s₁, p, s₂, e0, e1, e2, evs', r, e3, e4⟩
  · rw [h] at e2; cases e2
  · rw [h] at e4; cases e4
    rcases dropStoragesU_true (pan := pan.after (nzEvs s₁ ++ cut (pan.after (nzEvs s₁)) p.2.nz))
        (fun q hq => hd.flat q (by rw [e0]; exact List.mem_append_right _ (List.mem_cons_of_mem _ hq)) : ∀ q ∈ s₂, UVec.Inv q.2)
        with ⟨_, f⟩ | ⟨t₁, q, t₂, rfl, f1, f2, f⟩
    · rw [e3] at f; cases f
    · rw [e3] at f; cases f
      rw [Panics.after_after] at f2
      refine ⟨p, q, nzEvs s₁, p.2.nz, nzEvs t₁, q.2.nz, nzEvs t₂, mem_col (by rw [e0]; simp), mem_col (by rw [e0]; simp),
        fires_nz e2, fires_nz f2, ?_, ?_, quiet_iff.2 e1, not_quiet_iff.2 e2, quiet_iff.2 f1, not_quiet_iff.2 f2⟩
      · rw [e0, nzEvs_append, nzEvs_cons, nzEvs_append, nzEvs_cons]
        simp only [List.append_assoc]
      · rw [Panics.after_after]
        simp only [List.append_assoc]

/-! ### The world is not usable afterwards -/

/-- All destructors of `B` panic. -/
def panB : Panics := fun _ ev => decide (ev.fn = .generic tB)

/-- Create a query and call `next` of its iterator `n` times: does this end with the fault `f`? -/
def queryFails (w : World) (ps : List Param) (n : Nat) (f : Fault) : Bool :=
  match World.query ps w with
  | .ok q w' =>
    match q.iter w' with
    | .ok it =>
      match callN (StaticIter.next w') n it with
      | .error f' => decide (f' = f)
      | .ok _ => false
    | .error _ => false
  | .error _ _ => false

theorem queryFails_iff {w : World} {ps : List Param} {n : Nat} {f : Fault} (h : queryFails w ps n f = true) :
    ∃ q w' it, World.query ps w = .ok q w' ∧ q.iter w' = .ok it ∧ callN (StaticIter.next w') n it = .error f := by
  unfold queryFails at h
  split at h
  · rename_i q w' h1
    split at h
    · rename_i it h2
      split at h
      · rename_i f' h3
        exact ⟨q, w', it, h1, h2, by rw [h3, of_decide_eq_true h]⟩
      · cases h
    · cases h
  · cases h

/-- The world after a `remove_component::<B>` that unwound. -/
def torn : World := after (removeComponentU panB (ent 6) tB demo)

/-- C53 fails: entity 6 has `A` and `B`.  `remove_component::<B>` moves its `A` to the other table, then the destructor of `B`
panics, and the entity is left in the list of the table with `A` and `B`.  A later (entirely safe) query for `&A` visits that
row and hands out a reference to a value that is not there any more: undefined behaviour. -/
theorem C53_remove_unsound : ∃ (w w' : World) (pan : Panics) (e : EcsId) (t : Ty), Reachable w ∧
    removeComponentU pan e t w = .error .dropPanic w' ∧
    ∃ q w'' it, World.query [.ref tA] w' = .ok q w'' ∧ q.iter w'' = .ok it ∧
      callN (StaticIter.next w'') 3 it = .error (.ub .readOob) :=
  ⟨demo, torn, panB, ent 6, tB, demo_reachable, eq_of_endsWith (by decide +kernel), queryFails_iff (by decide +kernel)⟩

/-- Without the panic the same query is fine. -/
example : queryFails (after (removeComponentU (fun _ _ => false) (ent 6) tB demo)) [.ref tA] 3 (.ub .readOob) = false ∧
    (removeComponentU (fun _ _ => false) (ent 6) tB demo matches .ok _ _) := by decide +kernel

theorem pair_runs : (runP [.spawn .plain [.with tB (val 8 9), .with tA (val 4 9), .build]] demo).isSome = true := by
  decide +kernel
/-- A second entity with `A` and `B`. -/
def pair : World := (runP [.spawn .plain [.with tB (val 8 9), .with tA (val 4 9), .build]] demo).get pair_runs
theorem pair_reachable : Reachable pair := runP_reachable demo_reachable (Option.some_get pair_runs).symm

/-- The world after a `despawn` that unwound. -/
def halfGone : World := after (despawnU panB (ent 6) pair)

/-- The answer of `query.get(entity)`. -/
def queryGet (w : World) (ps : List Param) (e : EcsId) : Option (List Item) :=
  match World.query ps w with
  | .ok q w' =>
    match q.get w' e with
    | .ok r => r
    | .error _ => none
  | .error _ _ => none

theorem queryGet_some {w : World} {ps : List Param} {e : EcsId} {l : List Item} (h : queryGet w ps e = some l) :
    ∃ q w', World.query ps w = .ok q w' ∧ q.get w' e = .ok (some l) := by
  unfold queryGet at h
  split at h
  · rename_i q w' h1
    split at h
    · rename_i r h2; subst h; exact ⟨q, w', h1, h2⟩
    · cases h
  · cases h

/-- C53 fails: after a `despawn` that unwound the entity is still alive, but `query.get` with its id answers with the id and the
component of another entity, and a second `despawn` panics on a broken invariant. -/
theorem C53_despawn_confused : ∃ (w w' : World) (pan : Panics) (e e' : EcsId), Reachable w ∧
    despawnU pan e w = .error .dropPanic w' ∧ w'.Alive e ∧ e' ≠ e ∧
    (∃ q w'' p, World.query [.ids, .ref tA] w' = .ok q w'' ∧ q.get w'' e = .ok (some [.id e', .ref tA p])) ∧
    ∃ w'', despawn e w' = .error .despawnAssert w'' := by
  obtain ⟨q, w'', h1, h2⟩ := queryGet_some (w := halfGone) (ps := [.ids, .ref tA]) (e := ent 6)
    (l := [.id ⟨1, 5⟩, .ref tA ⟨.storage 1 0, 0⟩]) (by decide +kernel)
  exact ⟨pair, halfGone, panB, ent 6, ⟨1, 5⟩, pair_reachable, eq_of_endsWith (by decide +kernel), by decide +kernel,
    by decide, ⟨q, w'', _, h1, h2⟩, _, eq_of_endsWith (by decide +kernel)⟩

/-- The hypotheses of the positive theorems are met: a `despawn` of an entity with `A` and `B` whose second destructor panics,
and a drop of the world in which the destructors of `B` (one value: unwinds) or of `A` (several columns: aborts) panic. -/
example : (∃ d, Hist demo d) ∧ endsWith (despawnU panB (ent 6) demo) .dropPanic = true ∧
    newDrops demo (after (despawnU panB (ent 6) demo)) = [⟨.generic tA, val 4 7⟩, ⟨.generic tB, val 8 8⟩] ∧
    newDrops demo (after (despawnU (fun _ _ => true) (ent 6) demo)) = [⟨.generic tA, val 4 7⟩] ∧
    endsWith (removeComponentDynamicU panB (ent 6) (ent 2) demo) .dropPanic = true ∧
    endsWith (removeComponentU panB (ent 6) tB demo) .dropPanic = true ∧
    (dropWorldU panB demo).toOption.map Prod.snd = some .unwound ∧
    (dropWorldU (fun _ ev => decide (ev.fn = .generic tA)) demo).toOption.map Prod.snd = some .aborted ∧
    (dropWorldU (fun _ _ => false) demo).toOption.map Prod.snd = some .done :=
  ⟨demo_reachable.hist, by decide +kernel, by decide +kernel, by decide +kernel, by decide +kernel, by decide +kernel,
    by decide +kernel, by decide +kernel, by decide +kernel⟩

/-! ### The theorems at work -/

example := C53_despawn demo_reachable panB (ent 6)
example := C53_remove_dynamic demo_reachable panB (ent 6) (ent 2)
example := C53_remove demo_reachable panB (ent 6) tB
example {d : Deal} (h : World.Hist demo d) := C53_despawn_once_partial h panB (ent 6) (eq_of_endsWith (by decide +kernel))
example {d : Deal} (h : World.Hist demo d) := C53_remove_dynamic_once_partial h panB (ent 6) (ent 2) (eq_of_endsWith (by decide +kernel))
example {d : Deal} (h : World.Hist demo d) := C53_remove_once_partial h panB (ent 6) tB (eq_of_endsWith (by decide +kernel))
example (evs : List DropEv) := C53_drop_world_lost demo_reachable panB evs
example := C53_drop_world demo_reachable panB
example {d : Deal} (h : World.Hist demo d) :=
  C53_unwound_drop h panB (fun _ _ => true) (.inl ⟨ent 6, eq_of_endsWith (by decide +kernel)⟩)

/-- Destructors with a countdown: the second and the third drop call unwind, whatever they drop. -/
def panLate : Panics := fun past _ => decide (past.length = 1 ∨ past.length = 2)

/-- The second destructor of a `despawn` panics, the only one of a `remove_component` does not; dropping the world aborts at the
third, or unwinds when the third is fine. -/
example : newDrops demo (after (despawnU panLate (ent 6) demo)) = [⟨.generic tA, val 4 7⟩, ⟨.generic tB, val 8 8⟩] ∧
    endsWith (despawnU panLate (ent 6) demo) .dropPanic = true ∧
    endsOk (removeComponentU panLate (ent 6) tB demo) () = true ∧
    (dropWorldU panLate demo).toOption.map (fun r => (r.1.length, r.2)) = some (3, .aborted) ∧
    (dropWorldU (fun past _ => decide (past.length = 1)) demo).toOption.map (fun r => (r.1.length, r.2)) =
      some (4, .unwound) := by decide +kernel

theorem late_aborts : ∃ evs, dropWorldU panLate demo = .ok (evs, .aborted) := by
  cases h : dropWorldU panLate demo with
  | error f =>
    have : (dropWorldU panLate demo).toOption.map Prod.snd = some .aborted := by decide +kernel
    rw [h] at this; cases this
  | ok r =>
    have : (dropWorldU panLate demo).toOption.map Prod.snd = some .aborted := by decide +kernel
    rw [h] at this
    obtain ⟨evs, e⟩ := r
    simp only [Except.toOption, Option.map, Option.some.injEq] at this
    subst this
    exact ⟨evs, rfl⟩
example := C53_drop_world_aborted demo_reachable panLate _ late_aborts.choose_spec

end Ellecs.WorldSpec
