import Verif.Proofs.Told
import Verif.Props.Latest
import Verif.Props.Endless
/-!
# C91: what a typed program must expect

`C90` follows a component with a known id through the life of one entity.  Here the whole life of a type and of all
entities is read off the conversation: no id of a component and no state of the world is mentioned.
-/
namespace Ellecs.WorldSpec
open World Demo

/-- C91: what an entity has of a type is what the questions and answers say, in their order: a builder gives the values
it was given, adding puts, removing and despawning remove, and all else does nothing. -/
theorem C91_told {w w' : World} (hw : Safe w []) {t : Ty} (ht : ∀ c, w.typeMap t = some c → w.Alive c) {tr : List (Ask × Except Fault Answer)} (h : FreeTalk w tr w')
    (hn : ∀ p ∈ tr, Neat p.1) (hd : ∀ c, w'.typeMap t = some c → ¬ Despawned tr c ∧ ∀ p ∈ tr, TypedOnly c p.1)
    {e : EcsId} {old : Option Bytes} (ho : ∀ bs, w.HasTy e t bs ↔ old = some bs) : ∀ bs, w'.HasTy e t bs ↔ told e t tr old = some bs :=
  (h.told hw ht hn (fun c hc => (hd c hc).2) (fun c hc => (hd c hc).1) ho).2

/-- C91: in particular from the beginning of the program. -/
theorem C91_start {w : World} {tr : List (Ask × Except Fault Answer)} (h : FreeTalk World.new tr w) (hn : ∀ p ∈ tr, Neat p.1) {t : Ty}
    (hd : ∀ c, w.typeMap t = some c → ¬ Despawned tr c ∧ ∀ p ∈ tr, TypedOnly c p.1) (e : EcsId) : ∀ bs, w.HasTy e t bs ↔ told e t tr none = some bs :=
  C91_told (C61_covers .new) (fun c hc => by cases hc) h hn hd (fun bs => ⟨fun ⟨c, hc, _⟩ => (by cases hc), fun hh => (by cases hh)⟩)

/-- C91: and this is what the program sees when it asks whether there is a value, and which. -/
theorem C91_seen {w : World} {tr : List (Ask × Except Fault Answer)} (h : FreeTalk World.new tr w) (hn : ∀ p ∈ tr, Neat p.1) {t : Ty}
    (hd : ∀ c, w.typeMap t = some c → ¬ Despawned tr c ∧ ∀ p ∈ tr, TypedOnly c p.1) {e : EcsId} :
    (∀ b w', Ask.exec (.has t e) w = .ok (.bool b) w' → b = (told e t tr none).isSome) ∧
    (∀ c x w', w.typeMap t = some c → Ask.exec (.look e c t.size) w = .ok (.value x) w' → x = told e t tr none) := by
  have h0 : Safe World.new [] := C61_covers .new
  have hw := h.safe h0
  have hi := hw.inv.inv
  have ha := view_shows hi
  have hval := C91_start h hn hd e
  have htyp := (h.told h0 (t := t) (e := e) (old := none) (fun c hc => by cases hc) hn (fun c hc => (hd c hc).2) (fun c hc => (hd c hc).1)
    (fun bs => ⟨fun ⟨c, hc, _⟩ => (by cases hc), fun hh => (by cases hh)⟩)).1
  have hg := view_good hw htyp
  have hcell : ∀ c, w.typeMap t = some c → w.view.cell e c = told e t tr none := fun c hc => by
    apply Option.ext
    intro bs
    rw [← hval, ha.cell]
    exact ⟨fun hh => ⟨c, hc, hh⟩, fun ⟨d, hd, hh⟩ => by rw [hc] at hd; cases hd; exact hh⟩
  constructor
  · intro b w' hx
    obtain ⟨s1, _⟩ := ask_maps (q := .has t e) hw trivial (Or.inl ⟨_, rfl, hx⟩)
    have s1 : Except.map Answer.bool (w.view.hasComponent t e) = .ok (.bool b) := s1
    unfold AWorld.hasComponent at s1
    rw [ha.types] at s1
    cases ht : w.typeMap t with
    | none =>
      rw [ht] at s1
      cases s1
      cases hv : told e t tr none with
      | none => rfl
      | some bs =>
        obtain ⟨c, hc, _⟩ := (hval bs).2 hv
        rw [ht] at hc; cases hc
    | some c =>
      rw [ht] at s1
      rw [← hcell c ht]
      simp only at s1
      cases he : w.view.isAlive e with
      | error f => rw [he] at s1; cases s1
      | ok y => rw [he] at s1; cases s1; rfl
  · intro c x w' ht hx
    rw [← hcell c ht]
    have hty := hg.typ c (by rw [ha.types]; exact ht)
    have hq : Ask.Ok w (.look e c t.size) := fun m' hm' => by
      have h1 := (ha.info c m').2 hm'
      rw [hty.2] at h1
      cases h1; rfl
    obtain ⟨s1, _⟩ := ask_maps hw hq (Or.inl ⟨_, rfl, hx⟩)
    have s1 : Except.map Answer.value (w.view.look e c) = .ok (.value x) := s1
    have hdead : w.view.isAlive e ≠ .ok true → w.view.cell e c = none := fun he => by
      have := AW.dead_tval hg he
      unfold AW.tval at this
      rw [ha.types, ht] at this
      exact this
    unfold AWorld.look at s1
    cases he : w.view.isAlive e with
    | error f => rw [he] at s1; cases s1
    | ok y =>
      cases y with
      | false => rw [he] at s1; cases s1; rw [hdead (by rw [he]; simp)]
      | true =>
        rw [he] at s1
        simp only [hty.1] at s1
        cases h1 : w.view.info e with
        | none =>
          simp only [h1] at s1
          cases s1
          cases h2 : w.view.cell e c with
          | none => rfl
          | some bs =>
            obtain ⟨m, hm⟩ := hg.cellInfo e c bs h2
            rw [h1] at hm; cases hm
        | some m =>
          simp only [h1] at s1
          cases h2 : w.view.cell e c with
          | none => simp only [h2] at s1; cases s1
          | some bs => simp only [h2] at s1; cases s1; rfl

/-- C91: the id of a type stays alive. -/
theorem C91_types {w : World} {tr : List (Ask × Except Fault Answer)} (h : FreeTalk World.new tr w) (hn : ∀ p ∈ tr, Neat p.1) {t : Ty}
    (hd : ∀ c, w.typeMap t = some c → ¬ Despawned tr c ∧ ∀ p ∈ tr, TypedOnly c p.1) : ∀ c, w.typeMap t = some c → w.Alive c :=
  (h.told (C61_covers .new) (t := t) (e := ⟨0, 0⟩) (old := none) (fun c hc => by cases hc) hn (fun c hc => (hd c hc).2) (fun c hc => (hd c hc).1)
    (fun bs => ⟨fun ⟨c, hc, _⟩ => (by cases hc), fun hh => (by cases hh)⟩)).1

/-- C91: a static query for types shows exactly the rows the conversation says: one for each entity that has a value of
every type, with those values. -/
theorem C91_rows {w w' : World} {tr : List (Ask × Except Fault Answer)} (h : FreeTalk World.new tr w) (hn : ∀ p ∈ tr, Neat p.1) {ps : List Param}
    (hd : ∀ p ∈ ps, ∀ t, p.Of t → ∀ c, w.typeMap t = some c → ¬ Despawned tr c ∧ ∀ x ∈ tr, TypedOnly c x.1) (hne : ∃ p ∈ ps, ∃ t, p.Of t)
    (hlen : w.archetypes.length < 2 ^ 32) {q : StaticQuery} (hq : query ps w = .ok q w') :
    ∃ (it : StaticIter) (rows : List (List Item)) (es : List EcsId) (ss : List (List AWorld.Seen)),
      q.iter w' = .ok it ∧ Produces (fun s => StaticIter.next w' s) it rows ∧ rows.mapM (fun r => r.mapM w.readItem) = .ok ss ∧
      es.Nodup ∧ (∀ e, e ∈ es ↔ (toldRow tr ps e).isSome = true) ∧ es.map (toldRow tr ps) = ss.map some := by
  have hs : Safe w [] := h.safe (C61_covers .new)
  have hi := hs.inv.inv
  have ha := view_shows hi
  have hrow : w.view.row ps = toldRow tr ps := funext fun e => row_told hs (fun p hp t ht => C91_start h hn (hd p hp t ht) e) hne
  have hne' : ps ≠ [] := by
    rintro rfl
    obtain ⟨p, hp, _⟩ := hne
    cases hp
  have hlk : Locked w := h.locked (C61_covers .new) (fun c hc => absurd rfl hc)
  rw [← hrow]
  obtain ⟨it, es, rows, h1, h2, h3, h4, h5⟩ : ∃ (it : StaticIter) (es : List EcsId) (rows : List (List Item)), q.iter w' = .ok it ∧
      Produces (fun s => StaticIter.next w' s) it rows ∧ es.Nodup ∧ (∀ e, e ∈ es ↔ HasTypes w ps e) ∧
      Pairs (fun e row => Pairs (Denotes w e) ps row) es rows := by
    obtain ⟨_, ⟨fs, ks, hb, h1, h2, it, h3, h4⟩ | ⟨⟨p, hp, t, hpt, ht⟩, it, h3, h4⟩⟩ :=
      static_main hi ⟨w.locks, rfl, rfl⟩ hlen hne' (fun p hp t c hpt ht hl => (hlk c hl).resolve_right
        (fun hh => hh.2 (live_type_row hi ht (alive_iff.1 (C91_types h hn (hd p hp t hpt) c ht))))) hq
    · exact ⟨it, _, _, h3, h4, ents_nodup hi h1, fun e => (mem_visited hi h2 e).trans (hasAll_types hb e),
        static_rows hi hb (fun k hk => (h2 k).1 hk)⟩
    · refine ⟨it, [], [], h3, h4, List.nodup_nil, fun e => ?_, .nil⟩
      simp only [List.not_mem_nil, false_iff]
      rintro ⟨_, hh⟩
      obtain ⟨bs, c, hc, _⟩ := hh p hp t hpt
      rw [ht] at hc; cases hc
  obtain ⟨ss, s1, s2⟩ := pairs_mapM (k := w.view.row ps) (g := fun r => r.mapM w.readItem) h5 (fun e row he hr => by
    rw [row_eq hi ha ((h4 e).1 he).1]
    exact readRow_eq hi ha hr)
  exact ⟨it, rows, es, ss, h1, h2, s1, h3, fun e => (h4 e).trans (row_isSome hi ha).symm, s2⟩

/-- C91: and so does a lookup in a static query. -/
theorem C91_get {w w' : World} {tr : List (Ask × Except Fault Answer)} (h : FreeTalk World.new tr w) (hn : ∀ p ∈ tr, Neat p.1) {ps : List Param}
    (hd : ∀ p ∈ ps, ∀ t, p.Of t → ∀ c, w.typeMap t = some c → ¬ Despawned tr c ∧ ∀ x ∈ tr, TypedOnly c x.1) (hne : ∃ p ∈ ps, ∃ t, p.Of t)
    {q : StaticQuery} (hq : query ps w = .ok q w') {e : EcsId} (he : e.uindex < w.entities.generations.length) :
    ∃ r, q.get w' e = .ok r ∧ r.isSome = (toldRow tr ps e).isSome ∧
      ∀ items, r = some items → ∃ ss, items.mapM w.readItem = .ok ss ∧ toldRow tr ps e = some ss := by
  have hs : Safe w [] := h.safe (C61_covers .new)
  have hi := hs.inv.inv
  have ha := view_shows hi
  have hrow : w.view.row ps e = toldRow tr ps e := row_told hs (fun p hp t ht => C91_start h hn (hd p hp t ht) e) hne
  rw [← hrow]
  rcases get_spec hi ⟨w.locks, rfl, rfl⟩ hq e with ⟨_, h⟩ | ⟨r, h1, h2, h3⟩
  · omega
  refine ⟨r, h1, Bool.eq_iff_iff.2 (h2.trans (row_isSome hi ha).symm), ?_⟩
  intro items hr
  have : HasTypes w ps e := h2.1 (by rw [hr]; rfl)
  rw [row_eq hi ha this.1]
  exact readRow_eq hi ha (h3 items hr)

/-! ## cases -/

/-- An entity is built with a value, which is removed and added anew; a second addition panics; another entity is
despawned and its slot recycled, with other components. -/
def tale : List Ask :=
  [.spawn .plain [.with tA (val 4 1), .with tB (val 8 2), .build], .spawn .plain [.with tB (val 8 3), .build], .call (.removeComponent (ent 0) tA),
   .call (.addComponent (ent 0) tA (val 4 5)), .call (.addComponent (ent 0) tA (val 4 6)), .despawn (ent 3), .spawn .plain [.with tA (val 4 7), .build],
   .call (.addComponent ⟨1, 3⟩ tC (val 2 1)), .despawn (ent 3)]

def taleAnswers : List (Except Fault Answer) :=
  [.ok (.id (ent 0)), .ok (.id (ent 3)), .ok .unit, .ok .unit, .error .alreadyPresent, .ok (.bool true), .ok (.id ⟨1, 3⟩), .ok .unit, .ok (.bool false)]

theorem tale_told : (converse tale World.new).isSome = true := by decide +kernel
def taleEnd : World := ((converse tale World.new).get tale_told).2
theorem tale_talk : FreeTalk World.new (tale.zip taleAnswers) taleEnd := C89_covers.1 (converse_get .new tale_told (by decide +kernel))

theorem tale_neat : ∀ p ∈ tale.zip taleAnswers, Neat p.1 := by simp [tale, taleAnswers, Neat]

theorem tale_spares (i : BitVec 32) (hi : i ≠ 3) : ¬ Despawned (tale.zip taleAnswers) (ent i) ∧ ∀ p ∈ tale.zip taleAnswers, TypedOnly (ent i) p.1 := by
  constructor
  · rintro ⟨p, hp, h | h⟩ <;> subst h <;> revert hp <;> simp [tale, taleAnswers, ent]
    exact hi
  · simp [tale, taleAnswers, TypedOnly]

theorem tale_typeA : ∀ c, taleEnd.typeMap tA = some c → ¬ Despawned (tale.zip taleAnswers) c ∧ ∀ p ∈ tale.zip taleAnswers, TypedOnly c p.1 := by
  intro c hc
  have : taleEnd.typeMap tA = some (ent 1) := by decide +kernel
  rw [this] at hc
  cases hc
  exact tale_spares 1 (by decide)

theorem tale_typeB : ∀ c, taleEnd.typeMap tB = some c → ¬ Despawned (tale.zip taleAnswers) c ∧ ∀ p ∈ tale.zip taleAnswers, TypedOnly c p.1 := by
  intro c hc
  have : taleEnd.typeMap tB = some (ent 2) := by decide +kernel
  rw [this] at hc
  cases hc
  exact tale_spares 2 (by decide)

example : taleEnd.HasTy (ent 0) tA (val 4 5) := (C91_start tale_talk tale_neat tale_typeA (ent 0) _).2 (by decide +kernel)
example : taleEnd.HasTy (ent 0) tB (val 8 2) := (C91_start tale_talk tale_neat tale_typeB (ent 0) _).2 (by decide +kernel)
example : taleEnd.HasTy ⟨1, 3⟩ tA (val 4 7) := (C91_start tale_talk tale_neat tale_typeA ⟨1, 3⟩ _).2 (by decide +kernel)
example : ∀ bs, ¬ taleEnd.HasTy (ent 3) tB bs := fun bs h => by
  have := (C91_start tale_talk tale_neat tale_typeB (ent 3) bs).1 h
  rw [show told (ent 3) tB (tale.zip taleAnswers) none = none from by decide +kernel] at this
  cases this
example := C91_seen tale_talk tale_neat tale_typeA (e := ent 0)
example := C91_types tale_talk tale_neat tale_typeA

/-- The query of the case: ids and both types. -/
def talePs : List Param := [.ids, .mut tA, .ref tB]

theorem talePs_spares : ∀ p ∈ talePs, ∀ t, p.Of t → ∀ c, taleEnd.typeMap t = some c →
    ¬ Despawned (tale.zip taleAnswers) c ∧ ∀ x ∈ tale.zip taleAnswers, TypedOnly c x.1 := by
  intro p hp t ht
  simp only [talePs, List.mem_cons, List.not_mem_nil, or_false] at hp
  rcases hp with rfl | rfl | rfl <;> rcases ht with ht | ht <;> cases ht
  · exact tale_typeA
  · exact tale_typeB

theorem talePs_made : ∃ q w', query talePs taleEnd = .ok q w' := by
  cases h : query talePs taleEnd with
  | ok q w' => exact ⟨q, w', rfl⟩
  | error f w' =>
    have : (match query talePs taleEnd with | .ok _ _ => true | .error _ _ => false) = true := by decide +kernel
    rw [h] at this
    cases this

example : ∃ q w', query talePs taleEnd = .ok q w' ∧ ∃ (it : StaticIter) (rows : List (List Item)) (es : List EcsId) (ss : List (List AWorld.Seen)),
      q.iter w' = .ok it ∧ Produces (fun s => StaticIter.next w' s) it rows ∧ rows.mapM (fun r => r.mapM taleEnd.readItem) = .ok ss ∧
      es.Nodup ∧ (∀ e, e ∈ es ↔ (toldRow (tale.zip taleAnswers) talePs e).isSome = true) ∧ es.map (toldRow (tale.zip taleAnswers) talePs) = ss.map some := by
  obtain ⟨q, w', h⟩ := talePs_made
  exact ⟨q, w', h, C91_rows tale_talk tale_neat talePs_spares ⟨.mut tA, by decide, tA, Or.inl rfl⟩ (by decide +kernel) h⟩
example : toldRow (tale.zip taleAnswers) talePs (ent 0) = some [.id (ent 0), .value (val 4 5), .value (val 8 2)] := by decide +kernel
example : toldRow (tale.zip taleAnswers) talePs ⟨1, 3⟩ = none := by decide +kernel
example : ∃ q w', query talePs taleEnd = .ok q w' ∧ ∃ r, q.get w' (ent 0) = .ok (some r) ∧
    r.mapM taleEnd.readItem = .ok [.id (ent 0), .value (val 4 5), .value (val 8 2)] := by
  obtain ⟨q, w', h⟩ := talePs_made
  obtain ⟨r, h1, h2, h3⟩ := C91_get tale_talk tale_neat talePs_spares ⟨.mut tA, by decide, tA, Or.inl rfl⟩ h (e := ent 0) (by decide +kernel)
  have ht : toldRow (tale.zip taleAnswers) talePs (ent 0) = some [.id (ent 0), .value (val 4 5), .value (val 8 2)] := by decide +kernel
  rw [ht] at h2 h3
  obtain ⟨items, rfl⟩ := Option.isSome_iff_exists.1 h2
  obtain ⟨ss, s1, s2⟩ := h3 items rfl
  cases s2
  exact ⟨q, w', h, items, h1, s1⟩

end Ellecs.WorldSpec
