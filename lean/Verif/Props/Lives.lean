import Verif.Proofs.LivesRows
import Verif.Props.Told
/-!
# C92: a component through the lives of an entity

`C90` follows a component of an entity while both are alive, `C91` the types.  Here the entity may come and go, and the
component may be anything: what was built in, added and written as a type or dynamically.
-/
namespace Ellecs.WorldSpec
open World Demo

/-- C92: whether an entity is in the world, and what it has of a component, is what the questions and answers say, in
their order. -/
theorem C92_course {w w' : World} (hw : Safe w []) {e c : EcsId} {m : ComponentMeta} (hm : w.InfoIs c m) {tr : List (Ask × Except Fault Answer)} (h : FreeTalk w tr w')
    (hn : ∀ p ∈ tr, Neat p.1) (hdc : ¬ Despawned tr c) (hne : ∀ t, w'.typeMap t ≠ some e) {old : Option (Option Bytes)} (ho : w.Stands e c old) :
    w'.Stands e c (course w'.typeMap e c m.layout.size tr old) :=
  (h.course hw hm hn hdc hne ho).2

/-- C92: from the beginning of the program, an entity is in the world exactly if it was built, and not despawned since. -/
theorem C92_there {w : World} {tr : List (Ask × Except Fault Answer)} (h : FreeTalk World.new tr w) (hn : ∀ p ∈ tr, Neat p.1) {e : EcsId}
    (hne : ∀ t, w.typeMap t ≠ some e) : (∃ m, w.InfoIs e m) ↔ stays e tr = true := by
  have h0 : Safe World.new [] := C61_covers .new
  have hk := h.there h0 hn hne
  have hnone : World.new.view.info e = none := by
    cases hx : World.new.view.info e with
    | none => rfl
    | some m =>
      have := view_info_alive h0.inv.inv e m hx
      rw [(view_shows h0.inv.inv).alive] at this
      cases this
  rw [hnone] at hk
  have ha := view_shows (h.safe h0).inv.inv
  unfold stays
  rw [show (none : Option ComponentMeta).isSome = false from rfl] at hk
  rw [← hk]
  constructor
  · rintro ⟨m, hm⟩
    rw [(ha.info e m).2 hm]; rfl
  · intro hh
    obtain ⟨m, hm⟩ := Option.isSome_iff_exists.1 hh
    exact ⟨m, (ha.info e m).1 hm⟩

/-- C92: a component that was just built is not to be found anywhere, and has the metadata it was built with. -/
theorem C92_fresh {w w' : World} (hw : Safe w []) {kind : SpawnKind} {as : List BAct} (hq : Ask.Ok w (.spawn kind as)) (hn : Neat (.spawn kind as))
    {c : EcsId} (h : Ask.exec (.spawn kind as) w = .ok (.id c) w') (hne : ∀ t, w'.typeMap t ≠ some c) :
    (.build ∈ as → w'.InfoIs c (AWorld.metaOf kind)) ∧ ∀ e bs, ¬ w'.Has e c bs :=
  fresh_component hw hq hn h hne

/-- C92: a dynamic component in the life of a program: from its birth on, every entity has of it what the conversation
says.  No ids of types and no states are mentioned. -/
theorem C92_program {w : World} {tr1 tr2 : List (Ask × Except Fault Answer)} {kind : SpawnKind} {as : List BAct} {e c : EcsId}
    (h : FreeTalk World.new (tr1 ++ (.spawn kind as, .ok (.id c)) :: tr2) w) (hn : ∀ p ∈ tr1 ++ (.spawn kind as, .ok (.id c)) :: tr2, Neat p.1)
    (hb : .build ∈ as) (hdc : ¬ Despawned tr2 c) (hc : ∀ t, w.typeMap t ≠ some c) (he : ∀ t, w.typeMap t ≠ some e) :
    w.Stands e c (course (fun _ => none) e c (AWorld.metaOf kind).layout.size tr2
      (if stays e (tr1 ++ [(.spawn kind as, .ok (.id c))]) = true then some none else none)) := by
  have h0 : Safe World.new [] := C61_covers .new
  have hn1 : ∀ p ∈ tr1 ++ [(Ask.spawn kind as, .ok (.id c))], Neat p.1 := fun p hp => hn p (by
    rcases List.mem_append.1 hp with hp | hp
    · exact List.mem_append_left _ hp
    · exact List.mem_append_right _ (by rw [List.mem_singleton.1 hp]; exact List.mem_cons_self))
  obtain ⟨u, g1, g2⟩ := h.split
  have hu := g1.safe h0
  generalize hp : ((Ask.spawn kind as, Except.ok (Answer.id c)) : Ask × Except Fault Answer) = p at g2
  cases g2 with
  | @ok _ v _ q x _ g3 g4 g5 g6 =>
    cases hp
    have hv := (ask_safe hu g3).1 _ _ g4 g5
    have g7 : FreeTalk World.new (tr1 ++ [(.spawn kind as, .ok (.id c))]) v := g1.append (.ok g3 g4 g5 (.done v))
    obtain ⟨k1, k2⟩ := C92_fresh hu g3 (hn1 _ (List.mem_append_right _ List.mem_cons_self)) g4 (fun t hh => hc t (g6.keeps hv hh))
    have k3 := C92_there g7 hn1 (e := e) (fun t hh => he t (g6.keeps hv hh))
    rw [← course_untyped hc]
    refine C92_course hv (k1 hb) g6 (fun p hp => hn p (List.mem_append_right _ (List.mem_cons_of_mem _ hp))) hdc he ?_
    split
    · next hs => exact ⟨k3.2 hs, fun bs => ⟨fun hh => absurd hh (k2 e bs), fun hh => by cases hh⟩⟩
    · next hs => exact fun m hm => hs (k3.1 ⟨m, hm⟩)
  | panic => cases hp

/-- C92: and this is what the program sees when it asks for the component. -/
theorem C92_seen {w : World} (hw : Safe w []) {e c : EcsId} {m : ComponentMeta} (hm : w.InfoIs c m) {o : Option (Option Bytes)} (ho : w.Stands e c o)
    {x : Option Bytes} {w' : World} (h : Ask.exec (.look e c m.layout.size) w = .ok (.value x) w') : x = o.join := by
  have hi := hw.inv.inv
  have ha := view_shows hi
  have hs := (stands_iff ha e c o).1 ho
  have hq : Ask.Ok w (.look e c m.layout.size) := fun m' hm' => by
    have h1 := (ha.info c m).2 hm
    rw [(ha.info c m').2 hm'] at h1
    cases h1; rfl
  obtain ⟨s1, _⟩ := ask_maps hw hq (Or.inl ⟨_, rfl, h⟩)
  have s1 : Except.map Answer.value (w.view.look e c) = .ok (.value x) := s1
  have hc := view_info_alive hi c m ((ha.info c m).2 hm)
  unfold AWorld.look at s1
  cases o with
  | none =>
    have hs : w.view.info e = none := hs
    simp only [hc, hs] at s1
    split at s1
    · cases s1
    · cases s1; rfl
    · cases s1; rfl
  | some o =>
    obtain ⟨⟨me, hme⟩, hs⟩ := hs
    simp only [hc, hme, view_info_alive hi e me hme, hs] at s1
    cases o with
    | none => cases s1
    | some bs => cases s1; rfl

/-- C92: the component itself keeps the metadata it was built with. -/
theorem C92_kept {w : World} {tr1 tr2 : List (Ask × Except Fault Answer)} {kind : SpawnKind} {as : List BAct} {c : EcsId}
    (h : FreeTalk World.new (tr1 ++ (.spawn kind as, .ok (.id c)) :: tr2) w) (hn : ∀ p ∈ tr1 ++ (.spawn kind as, .ok (.id c)) :: tr2, Neat p.1)
    (hb : .build ∈ as) (hdc : ¬ Despawned tr2 c) (hc : ∀ t, w.typeMap t ≠ some c) : w.InfoIs c (AWorld.metaOf kind) := by
  have h0 : Safe World.new [] := C61_covers .new
  obtain ⟨u, g1, g2⟩ := h.split
  have hu := g1.safe h0
  generalize hp : ((Ask.spawn kind as, Except.ok (Answer.id c)) : Ask × Except Fault Answer) = p at g2
  cases g2 with
  | @ok _ v _ q x _ g3 g4 g5 g6 =>
    cases hp
    have hv := (ask_safe hu g3).1 _ _ g4 g5
    obtain ⟨k1, k2⟩ := C92_fresh hu g3 (hn _ (List.mem_append_right _ List.mem_cons_self)) g4 (fun t hh => hc t (g6.keeps hv hh))
    exact (g6.course hv (k1 hb) (fun p hp => hn p (List.mem_append_right _ (List.mem_cons_of_mem _ hp))) hdc hc (e := c) (old := some none)
      ⟨⟨_, k1 hb⟩, fun bs => ⟨fun hh => absurd hh (k2 c bs), fun hh => by cases hh⟩⟩).1
  | panic => cases hp

/-- C92: a component in the life of a program, from the whole conversation. -/
theorem C92_life {w : World} {tr : List (Ask × Except Fault Answer)} (h : FreeTalk World.new tr w) (hn : ∀ p ∈ tr, Neat p.1) {e c : EcsId}
    (hb : Born tr c) (hc : ∀ t, w.typeMap t ≠ some c) (he : ∀ t, w.typeMap t ≠ some e) : w.Stands e c (life e c tr) := by
  obtain ⟨tr1, kind, as, tr2, rfl, h1, h2, h3⟩ := hb
  rw [life_born h3]
  exact C92_program h hn h1 h2 hc he

/-- C92: a dynamic query for components that were built shows the rows the conversation says: among the entities that are
not ids of types, one for each that has every component, with the values the conversation says. -/
theorem C92_rows {w w' : World} {tr : List (Ask × Except Fault Answer)} (h : FreeTalk World.new tr w) (hn : ∀ p ∈ tr, Neat p.1) {fs : List Fetch}
    (hne : fs ≠ []) (hb : ∀ f ∈ fs, ∀ c, f.Of c → Born tr c ∧ ∀ t, w.typeMap t ≠ some c) (hlen : w.archetypes.length < 2 ^ 32)
    {q : DynQuery} (hq : queryDynamic fs w = .ok q w') :
    ∃ (it : DynIter) (rows : List (List Ptr)) (es : List EcsId) (ss : List (List AWorld.Seen)),
      q.iter w' = .ok it ∧ Produces (fun s => DynIter.next w' s) it rows ∧
      rows.mapM (fun r => (fs.zip r).mapM (fun x => w.readFetch x.1 x.2)) = .ok ss ∧ es.Nodup ∧ es.length = ss.length ∧
      ∀ e, (∀ t, w.typeMap t ≠ some e) → (e ∈ es ↔ (lifeRow tr fs e).isSome = true) ∧ ∀ i : Nat, es[i]? = some e → ss[i]? = lifeRow tr fs e := by
  have h0 : Safe World.new [] := C61_covers .new
  have hs : Safe w [] := h.safe h0
  have hi := hs.inv.inv
  have ha := view_shows hi
  have hrow : ∀ e, (∀ t, w.typeMap t ≠ some e) → w.view.rowDyn fs e = lifeRow tr fs e := fun e he =>
    rowDyn_life hs (C92_there h hn he) (fun f hf c hc => C92_life h hn (hb f hf c hc).1 (hb f hf c hc).2 he)
  have hlk : Locked w := h.locked h0 (fun c hc => absurd rfl hc)
  have hused : LocksUsed w fs := fun f hf c hc hl => (hlk c hl).resolve_right (fun hh => hh.2 (by
    obtain ⟨⟨tr1, kind, as, tr2, rfl, b1, b2, _⟩, b4⟩ := hb f hf c hc
    have hm := C92_kept h hn b1 b2 b4
    exact ((infoIs_iff hi).1 hm).1))
  obtain ⟨_, ks, h1, h2, ⟨it, h3, h4⟩, _⟩ := dynamic_main hi ⟨w.locks, rfl, rfl⟩ hlen hne hused hq
  have hv := mem_visited hi h2
  obtain ⟨ss, s1, s2⟩ := pairs_mapM (k := w.view.rowDyn fs) (g := fun r => (fs.zip r).mapM (fun x => w.readFetch x.1 x.2))
    (dyn_rows hi (fun k hk => (h2 k).1 hk)) (fun e row he hr => by
      rw [rowDyn_eq hi ha ((hv e).1 he).1]
      exact readDyn_eq hi ha hr)
  refine ⟨it, _, _, ss, h3, h4, s1, ents_nodup hi h1, by simpa using congrArg List.length s2, fun e he => ⟨?_, fun i hx => ?_⟩⟩
  · rw [← hrow e he]
    exact (hv e).trans (rowDyn_isSome hi ha).symm
  · have := congrArg (fun l => l[i]?) s2
    simp only [List.getElem?_map, hx, Option.map_some] at this
    rw [← hrow e he]
    cases hy : ss[i]? with
    | none => rw [hy] at this; cases this
    | some y => rw [hy] at this; injection this with this; exact this.symm

/-! ## cases -/

/-- A component of four bytes is made.  An entity is built with it, which is overwritten; a second addition panics; the
entity is despawned and its slot recycled; an older entity gets the component and loses it. -/
def saga : List Ask :=
  [.spawn .plain [.with tA (val 4 9), .build], .call (.addDynamic (ent 0) (ent 0)), .spawn (.withMeta ⟨none, tA.layout⟩) [.build],
   .spawn .plain [.withDynamicWithData (ent 2) (val 4 1), .with tB (val 8 2), .build], .call (.write (ent 3) (ent 2) (val 4 6)),
   .call (.addDynamicWithData (ent 0) (ent 2) (val 4 3)), .call (.addDynamicWithData (ent 3) (ent 2) (val 4 8)),
   .despawn (ent 3), .spawn .plain [.withDynamicWithData (ent 2) (val 4 7), .build], .call (.removeDynamic (ent 0) (ent 2))]

def sagaBefore : List (Ask × Except Fault Answer) := (saga.take 2).zip [.ok (.id (ent 0)), .ok .unit]
def sagaAfter : List (Ask × Except Fault Answer) :=
  (saga.drop 3).zip [.ok (.id (ent 3)), .ok .unit, .ok .unit, .error .alreadyPresent, .ok (.bool true), .ok (.id ⟨1, 3⟩), .ok .unit]

theorem saga_told : (converse saga World.new).isSome = true := by decide +kernel
def sagaEnd : World := ((converse saga World.new).get saga_told).2
theorem saga_talk : FreeTalk World.new (sagaBefore ++ (.spawn (.withMeta ⟨none, tA.layout⟩) [.build], .ok (.id (ent 2))) :: sagaAfter) sagaEnd :=
  C89_covers.1 (converse_get (xs := [.ok (.id (ent 0)), .ok .unit, .ok (.id (ent 2)), .ok (.id (ent 3)), .ok .unit, .ok .unit, .error .alreadyPresent,
    .ok (.bool true), .ok (.id ⟨1, 3⟩), .ok .unit]) .new saga_told (by decide +kernel))

theorem saga_neat : ∀ p ∈ sagaBefore ++ (.spawn (.withMeta ⟨none, tA.layout⟩) [.build], .ok (.id (ent 2))) :: sagaAfter, Neat p.1 := by
  simp [sagaBefore, sagaAfter, saga, Neat]

theorem saga_spares : ¬ Despawned sagaAfter (ent 2) := by
  rintro ⟨p, hp, h | h⟩ <;> subst h <;> revert hp <;> simp [sagaAfter, saga, ent]

/-- What has metadata that is not that of a type is not a type. -/
theorem untyped {w : World} (hw : Safe w []) {x : EcsId} {m : ComponentMeta} (hm : m.dropFn = none) (hx : w.infoOf x = some m) : ∀ t, w.typeMap t ≠ some x := by
  intro t ht
  have hi := hw.inv.inv
  have ha := view_shows hi
  have h1 : w.InfoIs x m := infoOf_iff.1 hx
  have hl : w.Alive x := Entities.isAlive_live (hi.row_live ((infoIs_iff hi).1 h1).1)
  have h2 := (ha.info _ _).2 (hi.type_info ht (Entities.isAlive_iff.1 hl))
  rw [(ha.info _ _).2 h1] at h2
  cases h2
  cases hm

theorem saga_safe : Safe sagaEnd [] := saga_talk.safe (C61_covers .new)
theorem saga_c : ∀ t, sagaEnd.typeMap t ≠ some (ent 2) := untyped saga_safe (m := ⟨none, tA.layout⟩) rfl (by decide +kernel)
theorem saga_0 : ∀ t, sagaEnd.typeMap t ≠ some (ent 0) := untyped saga_safe (m := .unit) rfl (by decide +kernel)
theorem saga_3 : ∀ t, sagaEnd.typeMap t ≠ some ⟨1, 3⟩ := untyped saga_safe (m := .unit) rfl (by decide +kernel)

/-- The slot was recycled: the new entity has what it was built with. -/
example : sagaEnd.Has ⟨1, 3⟩ (ent 2) (val 4 7) := by
  have h := C92_program saga_talk saga_neat List.mem_cons_self saga_spares saga_c saga_3
  rw [show course (fun _ => none) ⟨1, 3⟩ (ent 2) (AWorld.metaOf (.withMeta ⟨none, tA.layout⟩)).layout.size sagaAfter
    (if stays ⟨1, 3⟩ (sagaBefore ++ [(.spawn (.withMeta ⟨none, tA.layout⟩) [.build], .ok (.id (ent 2)))]) = true then some none else none) = some (some (val 4 7)) from by
      decide +kernel] at h
  exact (h.2 _).2 rfl

/-- The older entity got it and lost it. -/
example : ∀ bs, ¬ sagaEnd.Has (ent 0) (ent 2) bs := by
  have h := C92_program saga_talk saga_neat List.mem_cons_self saga_spares saga_c saga_0
  rw [show course (fun _ => none) (ent 0) (ent 2) (AWorld.metaOf (.withMeta ⟨none, tA.layout⟩)).layout.size sagaAfter
    (if stays (ent 0) (sagaBefore ++ [(.spawn (.withMeta ⟨none, tA.layout⟩) [.build], .ok (.id (ent 2)))]) = true then some none else none) = some none from by
      decide +kernel] at h
  exact fun bs hh => by cases (h.2 bs).1 hh

/-- In between both had it, and the entity that is gone now had what was written last. -/
example : (List.range 8).map (fun n => (course (fun _ => none) (ent 0) (ent 2) 4 (sagaAfter.take n) (some none), course (fun _ => none) (ent 3) (ent 2) 4 (sagaAfter.take n) none)) =
    [(some none, none), (some none, some (some (val 4 1))), (some none, some (some (val 4 6))), (some (some (val 4 3)), some (some (val 4 6))),
     (some (some (val 4 3)), some (some (val 4 6))), (some (some (val 4 3)), none), (some (some (val 4 3)), none), (some none, none)] := by decide +kernel

example : ∃ m, sagaEnd.InfoIs ⟨1, 3⟩ m := (C92_there saga_talk saga_neat saga_3).2 (by decide +kernel)

example {x : Option Bytes} {w' : World} (h : Ask.exec (.look ⟨1, 3⟩ (ent 2) 4) sagaEnd = .ok (.value x) w') : x = some (val 4 7) := by
  have hst := C92_program saga_talk saga_neat List.mem_cons_self saga_spares saga_c saga_3
  rw [show course (fun _ => none) ⟨1, 3⟩ (ent 2) (AWorld.metaOf (.withMeta ⟨none, tA.layout⟩)).layout.size sagaAfter
    (if stays ⟨1, 3⟩ (sagaBefore ++ [(.spawn (.withMeta ⟨none, tA.layout⟩) [.build], .ok (.id (ent 2)))]) = true then some none else none) = some (some (val 4 7)) from by
      decide +kernel] at hst
  exact C92_seen saga_safe (m := ⟨none, tA.layout⟩) (infoOf_iff.1 (by decide +kernel)) hst h

theorem saga_born : Born (sagaBefore ++ (.spawn (.withMeta ⟨none, tA.layout⟩) [.build], .ok (.id (ent 2))) :: sagaAfter) (ent 2) :=
  ⟨_, _, _, _, rfl, List.mem_cons_self, saga_spares, fun p hp k xs hh => by subst hh; revert hp; simp [sagaAfter, saga, ent]⟩

example : sagaEnd.InfoIs (ent 2) ⟨none, tA.layout⟩ := C92_kept saga_talk saga_neat List.mem_cons_self saga_spares saga_c

example : sagaEnd.Has ⟨1, 3⟩ (ent 2) (val 4 7) := by
  have h := C92_life saga_talk saga_neat saga_born saga_c saga_3
  rw [show life ⟨1, 3⟩ (ent 2) (sagaBefore ++ (.spawn (.withMeta ⟨none, tA.layout⟩) [.build], .ok (.id (ent 2))) :: sagaAfter) = some (some (val 4 7)) from by
    decide +kernel] at h
  exact (h.2 _).2 rfl

theorem saga_rows : ∃ q w', queryDynamic [.ecsId, .immut (ent 2)] sagaEnd = .ok q w' := by
  have h : (match queryDynamic [.ecsId, .immut (ent 2)] sagaEnd with | .ok _ _ => true | .error _ _ => false) = true := by decide +kernel
  cases hq : queryDynamic [.ecsId, .immut (ent 2)] sagaEnd with
  | ok q w' => exact ⟨q, w', rfl⟩
  | error f w' => rw [hq] at h; cases h

/-- A query for the component shows the entity of the recycled slot with its value, and not the entity that lost it. -/
example : ∃ (q : DynQuery) (w' : World), queryDynamic [.ecsId, .immut (ent 2)] sagaEnd = .ok q w' ∧
    ∃ (it : DynIter) (rows : List (List Ptr)) (es : List EcsId) (ss : List (List AWorld.Seen)),
      q.iter w' = .ok it ∧ Produces (fun s => DynIter.next w' s) it rows ∧ es.Nodup ∧ ent 0 ∉ es ∧
      ∃ i : Nat, es[i]? = some ⟨1, 3⟩ ∧ ss[i]? = some [.id ⟨1, 3⟩, .value (val 4 7)] := by
  obtain ⟨q, w', hq⟩ := saga_rows
  refine ⟨q, w', hq, ?_⟩
  obtain ⟨it, rows, es, ss, h1, h2, _, h4, _, h6⟩ := C92_rows saga_talk saga_neat (fs := [.ecsId, .immut (ent 2)]) (by simp)
    (fun f hf c hc => by
      have : c = ent 2 := by rcases hc with rfl | rfl <;> simp_all
      subst this
      exact ⟨saga_born, saga_c⟩) (by decide +kernel) hq
  refine ⟨it, rows, es, ss, h1, h2, h4, ?_, ?_⟩
  · intro hh
    have := ((h6 _ saga_0).1).1 hh
    revert this
    decide +kernel
  · obtain ⟨i, hi⟩ := List.getElem?_of_mem (((h6 _ saga_3).1).2 (by decide +kernel))
    exact ⟨i, hi, ((h6 _ saga_3).2 i hi).trans (by decide +kernel)⟩

/-- The moment of the birth of the component. -/
example : ∃ u v, Ask.exec (.spawn (.withMeta ⟨none, tA.layout⟩) [.build]) u = .ok (.id (ent 2)) v ∧ v.InfoIs (ent 2) ⟨none, tA.layout⟩ ∧ ∀ e bs, ¬ v.Has e (ent 2) bs := by
  obtain ⟨u, g1, g2⟩ := saga_talk.split
  have hu := g1.safe (C61_covers .new)
  cases g2 with
  | ok g3 g4 g5 g6 =>
    obtain ⟨k1, k2⟩ := C92_fresh hu g3 (by simp [Neat]) g4 (fun t hh => saga_c t (g6.keeps ((ask_safe hu g3).1 _ _ g4 g5) hh))
    exact ⟨u, _, g4, k1 List.mem_cons_self, k2⟩

/-- The case of `C90`, where the component is that of a type. -/
example : storyEnd.Has (ent 0) (ent 1) (val 4 9) := by
  have hn : ∀ p ∈ story.zip storyAnswers, Neat p.1 := by simp [story, storyAnswers, Neat]
  have h := C92_course demo_safe story_info story_talk hn (story_spares 1 (by decide)) (untyped (story_talk.safe demo_safe) (x := ent 0) (m := .unit) rfl (by decide +kernel))
    (old := some (some (val 4 1))) ⟨⟨.unit, infoOf_iff.1 (by decide +kernel)⟩, story_old⟩
  rw [show course storyEnd.typeMap (ent 0) (ent 1) (ComponentMeta.fromGeneric tA).layout.size (story.zip storyAnswers) (some (some (val 4 1))) = some (some (val 4 9)) from by
    decide +kernel] at h
  exact (h.2 _).2 rfl

end Ellecs.WorldSpec
