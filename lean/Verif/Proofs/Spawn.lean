import Verif.Proofs.BuildNew
/-! # Spawning ids and registering component types -/
namespace Ellecs
namespace World

theorem Inv.withReuse {w : World} (h : Inv w) {r : Option (List EcsId × Bytes × Nat)}
    (hr : ∀ ids d c, r = some (ids, d, c) → ids = [] ∧ (0 < c ∧ d.length = c)) : Inv { w with reuse := r } :=
  ⟨h.ent, h.loc, h.shape, h.col, h.bits, h.cache, h.lock, h.type, h.arch0, h.uniq, hr⟩

/-- A live entity is unbuilt if it is in no table. -/
theorem Inv.inst_none {w : World} (h : Inv w) {e : EcsId} (hl : w.entities.Live e) :
    instOf w.metas e.uindex = none ↔ ¬ w.Row e := by
  constructor
  · rintro hi ⟨k, r, a, ha, hr⟩
    have := (h.loc.ent k r e (by rw [rowOf_eq ha]; exact hr)).2
    rw [hi] at this; cases this
  · intro hr
    cases hi : instOf w.metas e.uindex with
    | none => rfl
    | some im =>
      obtain ⟨k, r⟩ := im
      exact absurd ((row_iff e).2 ⟨k, r, h.loc.loc e k r hl hi⟩) hr

theorem Inv.row_live {w : World} (h : Inv w) {e : EcsId} (hr : w.Row e) : w.entities.Live e := by
  obtain ⟨k, r, hr⟩ := (row_iff e).1 hr
  exact (h.loc.ent k r e hr).1

theorem Inv.has_live {w : World} (h : Inv w) {e c : EcsId} {bs : Bytes} (hr : w.Has e c bs) : w.Row e := by
  obtain ⟨k, r, a, v, h1, h2, _, _⟩ := hr
  exact ⟨k, r, a, h1, h2⟩

/-- No type has an id in a slot that is free and at its last generation. -/
def Ready (w : World) : Prop := ∀ t id, w.typeMap t = some id → ¬ w.entities.Worn id.uindex

theorem _root_.Ellecs.Entities.NoWrap.ready {w : World} (h : w.entities.NoWrap) : w.Ready := fun _ _ _ => h.not_worn _

theorem Ready.kept {w : World} (h : w.Ready) (hi : Inv w) {t : Ty} {id : EcsId} (ht : w.typeMap t = some id) : w.entities.Kept id :=
  ⟨hi.type.known t id ht, h t id ht⟩

/-- The world after the allocator changed without losing a live id. -/
theorem Inv.withEntities {w : World} (h : Inv w) (hr : w.Ready) {s' : Entities} (hwf : s'.Wf)
    (hloc : LocOk s'.Live (instOf w.metas) (rowOf w.archetypes))
    (hlive : ∀ x, w.entities.Live x → s'.Live x) (hknown : ∀ x, w.entities.Kept x → s'.Kept x)
    (hnew : ∀ x, w.entities.Kept x → s'.Live x → w.entities.Live x) : Inv { w with entities := s' } := by
  refine ⟨hwf, hloc, h.shape, ?_, h.bits, h.cache, h.lock, ⟨?_, ?_, h.type.inj⟩, h.arch0, h.uniq, h.reuse⟩
  · intro a ha p hp
    obtain ⟨q1, q2, q3⟩ := h.col a ha p hp
    obtain ⟨q4, m, q5, q6⟩ := infoFn_some.1 q3
    exact ⟨q1, q2, infoFn_some.2 ⟨hlive _ q4, m, q5, q6⟩⟩
  · intro t id ht; exact (hknown _ (hr.kept h ht)).1
  · intro t id ht hl
    exact h.type.comp t id ht (hnew _ (hr.kept h ht) hl)

theorem spawnId_spec {w : World} (h : Inv w) (hn : w.Ready) :
    Tri spawnId w
      (fun e w' => ∃ s', w' = { w with entities := s' } ∧ Inv w' ∧ (w'.Ready ∧ (w.entities.NoWrap → s'.NoWrap)) ∧ (∀ x, s'.Live x ↔ w.entities.Live x ∨ x = e) ∧
        (∀ x, w.entities.Live x → x.uindex ≠ e.uindex) ∧ (∀ x, w.entities.Kept x → s'.Kept x) ∧ ¬ w.entities.Kept e ∧
        instOf w.metas e.uindex = none)
      (fun f w' => f = .outOfIds ∧ 2 ^ 32 ≤ w.entities.generations.length ∧ ∃ s', w' = { w with entities := s' } ∧ Inv w' ∧
        (w'.Ready ∧ (w.entities.NoWrap → s'.NoWrap)) ∧ (∀ x, s'.Live x ↔ w.entities.Live x) ∧ (∀ x, w.entities.Kept x → s'.Kept x)) := by
  unfold Tri spawnId
  rcases Entities.spawn_spec h.ent with ⟨s', e1, e2, e3, e4, e5, e6, e7⟩ | ⟨e, s', e1, e2, e3, e4, e5, e6⟩
  · rw [e1]
    refine ⟨rfl, e7, s', rfl, ?_, ⟨fun t id ht => (e4 _ (hn.kept h ht)).2, e5⟩, e3, e4⟩
    refine h.withEntities hn e2 ?_ (fun x hx => (e3 x).2 hx) e4 (fun x _ hx => (e3 x).1 hx)
    exact h.loc.congr e3 (fun _ => rfl) (fun _ _ => rfl)
  · rw [e1]
    obtain ⟨k1, k2⟩ := e5
    have hi : instOf w.metas e.uindex = none := by
      cases hh : instOf w.metas e.uindex with
      | none => rfl
      | some im =>
        obtain ⟨x, hx, hxi⟩ := h.loc.used _ _ hh
        exact absurd hxi (e4 x hx)
    refine ⟨s', rfl, ?_, ⟨fun t id ht => (k1 _ (hn.kept h ht)).1.2, k2⟩, e3, e4, fun x hx => (k1 x hx).1, fun hx => (k1 e hx).2 rfl, hi⟩
    refine h.withEntities hn e2 ?_ (fun x hx => (e3 x).2 (Or.inl hx)) (fun x hx => (k1 x hx).1) ?_
    · exact (h.loc.birth e4).congr e3 (fun _ => rfl) (fun _ _ => rfl)
    · intro x hx hl
      rcases (e3 x).1 hl with hl | rfl
      · exact hl
      · exact absurd rfl (k1 x hx).2

/-- `w'` is `w` with entities for some more types. -/
structure Grow (w w' : World) : Prop where
  inv : Inv w'
  ready : w'.Ready
  nowrap : w.entities.NoWrap → w'.entities.NoWrap
  live : ∀ x, w'.entities.Live x ↔ w.entities.Live x ∨ NewTy w w' x
  known : ∀ x, w.entities.Kept x → w'.entities.Kept x
  fresh : ∀ x, NewTy w w' x → ∀ y, w.entities.Live y → y.uindex ≠ x.uindex
  unknown : ∀ x, NewTy w w' x → ¬ w.entities.Kept x
  typ : ∀ t id, w.typeMap t = some id → w'.typeMap t = some id
  comp : ∀ x, w.entities.Live x → compOf w'.metas x.uindex = compOf w.metas x.uindex
  look : ∀ id i, w.lockLookup id = some i → w'.lockLookup id = some i
  locks : ∃ n, w'.locks = w.locks ++ List.replicate n RwLock.new
  tight : ∀ c, w'.lockLookup c ≠ none → w.lockLookup c ≠ none
  used : ∀ c, w'.Used c ↔ w.Used c
  row : ∀ x, w'.Row x ↔ w.Row x ∨ NewTy w w' x
  has : ∀ x c bs, w'.Has x c bs ↔ w.Has x c bs
  log : w'.log = w.log
  evs : w'.storedEvs.Perm w.storedEvs
  roomy : (∀ t, w.typeMap t = none → w'.typeMap t ≠ none → t.size * 4 < isizeMax) → w.Roomy → w'.Roomy

theorem newTy_refl {w : World} {x : EcsId} : ¬ NewTy w w x := by
  rintro ⟨t, h1, h2⟩; rw [h1] at h2; cases h2

theorem newTy_same {w w' : World} (h : w'.typeMap = w.typeMap) {x : EcsId} : ¬ NewTy w w' x := by
  rintro ⟨t, h1, h2⟩; rw [h, h1] at h2; cases h2

theorem Grow.refl {w : World} (h : Inv w) (hn : w.Ready) : Grow w w where
  inv := h
  ready := hn
  nowrap := id
  live := fun x => by simp [newTy_refl]
  known := fun _ hx => hx
  fresh := fun x hx => absurd hx newTy_refl
  unknown := fun x hx => absurd hx newTy_refl
  typ := fun _ _ ht => ht
  comp := fun _ _ => rfl
  look := fun _ _ hl => hl
  locks := ⟨0, by simp⟩
  tight := fun _ hc => hc
  used := fun _ => Iff.rfl
  row := fun x => by simp [newTy_refl]
  has := fun _ _ _ => Iff.rfl
  log := rfl
  evs := List.Perm.refl _
  roomy := fun _ hr => hr

theorem newTy_trans {w w' w'' : World} (ht : ∀ t id, w.typeMap t = some id → w'.typeMap t = some id)
    (ht' : ∀ t id, w'.typeMap t = some id → w''.typeMap t = some id) (x : EcsId) :
    NewTy w w'' x ↔ NewTy w w' x ∨ NewTy w' w'' x := by
  constructor
  · rintro ⟨t, h1, h2⟩
    cases h3 : w'.typeMap t with
    | none => exact Or.inr ⟨t, h3, h2⟩
    | some y =>
      have := ht' t y h3
      rw [this] at h2
      injection h2 with h2
      subst h2
      exact Or.inl ⟨t, h1, h3⟩
  · rintro (⟨t, h1, h2⟩ | ⟨t, h1, h2⟩)
    · exact ⟨t, h1, ht' t x h2⟩
    · refine ⟨t, ?_, h2⟩
      cases h3 : w.typeMap t with
      | none => rfl
      | some y => rw [ht t y h3] at h1; cases h1

theorem Grow.trans {w w' w'' : World} (h : Grow w w') (h' : Grow w' w'') : Grow w w'' := by
  have hnt := newTy_trans h.typ h'.typ
  refine ⟨h'.inv, h'.ready, fun hn => h'.nowrap (h.nowrap hn), ?_, fun x hx => h'.known x (h.known x hx), ?_, ?_, fun t id ht => h'.typ t id (h.typ t id ht), ?_,
    fun id i hl => h'.look id i (h.look id i hl), ?_, fun c hc => h.tight c (h'.tight c hc),
    fun c => (h'.used c).trans (h.used c), ?_, fun x c bs => (h'.has x c bs).trans (h.has x c bs), h'.log.trans h.log,
    h'.evs.trans h.evs, ?_⟩
  · intro x; rw [h'.live, h.live, hnt, or_assoc]
  · intro x hx y hy
    rcases (hnt x).1 hx with hx | hx
    · exact h.fresh x hx y hy
    · exact h'.fresh x hx y ((h.live y).2 (Or.inl hy))
  · intro x hx hk
    rcases (hnt x).1 hx with hx | hx
    · exact h.unknown x hx hk
    · exact h'.unknown x hx (h.known x hk)
  · intro x hx
    rw [h'.comp x ((h.live x).2 (Or.inl hx)), h.comp x hx]
  · obtain ⟨n, hn⟩ := h.locks
    obtain ⟨m, hm⟩ := h'.locks
    exact ⟨n + m, by rw [hm, hn, List.append_assoc, List.replicate_append_replicate]⟩
  · intro x; rw [h'.row, h.row, hnt, or_assoc]
  · intro hs hr
    refine h'.roomy ?_ (h.roomy ?_ hr)
    · intro t h1 h2
      refine hs t ?_ h2
      cases h3 : w.typeMap t with
      | none => rfl
      | some y => rw [h.typ t y h3] at h1; cases h1
    · intro t h1 h2
      refine hs t h1 ?_
      cases h3 : w'.typeMap t with
      | none => exact absurd h3 h2
      | some y => rw [h'.typ t y h3]; simp

/-- Whether the buffer is in the world or in a builder does not matter. -/
theorem Grow.reuse {w w' : World} (h : Grow w w') (r : Option (List EcsId × Bytes × Nat))
    (hr : ∀ ids d c, r = some (ids, d, c) → ids = [] ∧ (0 < c ∧ d.length = c)) : Grow w { w' with reuse := r } :=
  ⟨h.inv.withReuse hr, h.ready, h.nowrap, h.live, h.known, h.fresh, h.unknown, h.typ, h.comp, h.look, h.locks, h.tight, h.used, h.row,
    h.has, h.log, h.evs, h.roomy⟩

theorem Grow.ofEntities {w : World} {s' : Entities} (hi : Inv { w with entities := s' }) (hn : Ready { w with entities := s' } ∧ (w.entities.NoWrap → s'.NoWrap))
    (hl : ∀ x, s'.Live x ↔ w.entities.Live x) (hk : ∀ x, w.entities.Kept x → s'.Kept x) :
    Grow w { w with entities := s' } where
  inv := hi
  ready := hn.1
  nowrap := hn.2
  live := fun x => by rw [hl]; exact (or_iff_left (newTy_same rfl)).symm
  known := hk
  fresh := fun x hx => absurd hx (newTy_same rfl)
  unknown := fun x hx => absurd hx (newTy_same rfl)
  typ := fun _ _ ht => ht
  comp := fun _ _ => rfl
  look := fun _ _ hl => hl
  locks := ⟨0, by simp⟩
  tight := fun _ hc => hc
  used := fun _ => Iff.rfl
  row := fun x => (or_iff_left (newTy_same rfl)).symm
  has := fun _ _ _ => Iff.rfl
  log := rfl
  evs := List.Perm.refl _
  roomy := fun _ hr => hr

end World

namespace Builder

/-- The block of a builder has the size the builder believes it has. -/
structure Blk (b : Builder) : Prop where
  block : b.data.length = b.cap
  len : b.len ≤ b.cap

theorem drop_spec {b : Builder} (hb : Blk b) {w : World} (h : w.Inv) :
    ∃ r, b.drop w = .ok () { w with reuse := r } ∧ ∀ ids d c, r = some (ids, d, c) → ids = [] ∧ (0 < c ∧ d.length = c) := by
  unfold drop
  by_cases hc : b.cap ≠ 0
  · rw [if_pos hc]
    cases hr : w.reuse with
    | none =>
      refine ⟨_, rfl, ?_⟩
      intro ids d c hh
      injection hh with hh; injection hh with h1 h2; injection h2 with h2 h3
      exact ⟨h1.symm, by rw [← h2, ← h3]; exact ⟨Nat.pos_of_ne_zero hc, hb.block⟩⟩
    | some x =>
      simp only [hb.block, if_true]
      exact ⟨w.reuse, rfl, h.reuse⟩
  · rw [if_neg hc]
    exact ⟨w.reuse, rfl, h.reuse⟩

theorem new_spec (e : EcsId) (cm : ComponentMeta) {w : World} (h : w.Inv) :
    ∃ b r, Builder.new e cm w = .ok b { w with reuse := r } ∧ World.Packed b [] ∧ b.entity = e ∧ b.cmeta = cm ∧
      ∀ ids d c, r = some (ids, d, c) → ids = [] ∧ (0 < c ∧ d.length = c) := by
  unfold new
  cases hr : w.reuse with
  | none =>
    refine ⟨_, w.reuse, rfl, ⟨rfl, Nat.le_refl _, rfl, rfl⟩, rfl, rfl, h.reuse⟩
  | some x =>
    obtain ⟨ids, d, c⟩ := x
    obtain ⟨h1, h2⟩ := h.reuse _ _ _ hr
    exact ⟨_, _, rfl, ⟨h2.2, Nat.zero_le _, by simp, by simp [h1]⟩, rfl, rfl, by intro _ _ _ hh; cases hh⟩

end Builder

namespace World

theorem Packed.blk {b : Builder} {vals : List (EcsId × Bytes)} (h : Packed b vals) : Builder.Blk b := ⟨h.block, h.len⟩

theorem tri_orDrop {α : Type} {b : Builder} {x : M α} {w : World} {Q : α → World → Prop} {E E' : Fault → World → Prop}
    (h : Tri x w Q E') (hE : ∀ f w', E' f w' → ∃ r, b.drop w' = .ok () { w' with reuse := r } ∧ E f { w' with reuse := r }) :
    Tri (b.orDrop x) w Q E := by
  unfold Tri Builder.orDrop at *
  cases hx : x w with
  | ok a w' => rw [hx] at h; exact h
  | error f w' =>
    rw [hx] at h
    obtain ⟨r, h1, h2⟩ := hE f w' h
    simp only [h1]
    exact h2

/-- What `get_or_create_type_id_ecsid` does. -/
theorem getOrCreate_spec {w : World} (h : Inv w) (hn : w.Ready) (t : Ty) :
    Tri (getOrCreate t) w
      (fun id w' => Grow w w' ∧ w'.typeMap t = some id ∧ (w.typeMap t = some id → w' = w) ∧
        (w.typeMap t = none → w'.entities.Live id) ∧ (∀ t', t' ≠ t → w'.typeMap t' = w.typeMap t'))
      (fun f w' => f = .outOfIds ∧ 2 ^ 32 ≤ w.entities.generations.length ∧ w.typeMap t = none ∧ Grow w w' ∧
        w'.typeMap = w.typeMap) := by
  unfold getOrCreate
  simp only [tri_bind (x := get), tri_get]
  cases ht : w.typeMap t with
  | some id =>
    simp only [tri_pure]
    exact ⟨Grow.refl h hn, ht, fun _ => trivial, by intro hh; simp at hh, fun _ _ => trivial⟩
  | none =>
    simp only
    rw [tri_bind]
    refine (spawnId_spec h hn).imp ?_ ?_
    · rintro e w1 ⟨s', rfl, i1, n1, l1, f1, k1, u1, m1⟩
      obtain ⟨b, r, b1, b2, b3, b4, b5⟩ := Builder.new_spec e ComponentMeta.unit i1
      rw [tri_bind]
      unfold Tri
      rw [b1]
      simp only
      have i2 : Inv { w with entities := s', reuse := r } := i1.withReuse b5
      have hle : s'.Live e := (l1 e).2 (Or.inr rfl)
      have hbs := build_spec (w := { w with entities := s', reuse := r }) i2 b2 (by intro p hp; cases hp) List.nodup_nil
        (by rw [b3]; exact hle) (by rw [b3]; exact m1)
      rw [b3, b4] at hbs
      apply tri_bind.2
      refine tri_orDrop hbs ?_ |>.imp ?_ (fun _ _ hh => hh)
      · rintro f w3 ⟨hh, _⟩; exact absurd rfl hh
      · rintro b' w3 ⟨hb', hB⟩
        have hblk : Builder.Blk b' := by
          rcases hb' with rfl | rfl
          · exact b2.blk
          · exact ⟨b2.block, b2.len⟩
        have hent : w3.entities = s' := hB.ent
        obtain ⟨r', d1, d2⟩ := Builder.drop_spec hblk hB.inv
        rw [tri_bind]
        unfold Tri
        rw [d1]
        simp only
        apply tri_bind.2
        rw [tri_step]
        simp only
        have hrow : w3.Row e := (hB.row e).2 (Or.inr rfl)
        have hle3 : w3.entities.Live e := by rw [hent]; exact hle
        cases hme : w3.metas[e.uindex]? with
        | none =>
          exfalso
          have := (hB.inv.inst_none hle3).1 (by simp [instOf, hme])
          exact this hrow
        | some o =>
          cases o with
          | none =>
            exfalso
            have := (hB.inv.inst_none hle3).1 (by simp [instOf, hme])
            exact this hrow
          | some m =>
            simp only
            have hlt := (List.getElem?_eq_some_iff.1 hme).1
            obtain ⟨e1, e2⟩ := inst_of_metas hme
            simp only [tri_bind, tri_modify, tri_pure]
            have hinst : ∀ i, instOf (w3.metas.set e.uindex (some { m with comp := ComponentMeta.fromGeneric t })) i =
                instOf w3.metas i := by
              intro i
              rw [instOf_set hlt]
              split
              · rename_i hi; subst hi; exact e1.symm
              · rfl
            have hcomp : ∀ i, compOf (w3.metas.set e.uindex (some { m with comp := ComponentMeta.fromGeneric t })) i =
                if i = e.uindex then some (ComponentMeta.fromGeneric t) else compOf w3.metas i := fun i => compOf_set hlt _ i
            have hlive3 : ∀ x, w3.entities.Live x ↔ w.entities.Live x ∨ x = e := by rw [hent]; exact l1
            have hnk : ∀ t' id, w.typeMap t' = some id → id ≠ e := by
              rintro t' id hid rfl
              exact u1 (hn.kept h hid)
            have htyp : w3.typeMap = w.typeMap := hB.typ
            have hu3 : ∀ a ∈ w3.archetypes, ∀ c ∈ a.compIds, c.uindex ≠ e.uindex := by
              intro a ha c hc hu
              have : Used { w with entities := s', reuse := r } c := by
                rcases (hB.used c).1 ⟨a, ha, hc⟩ with hh | hh
                · exact hh
                · cases hh
              obtain ⟨a', ha', hc'⟩ := this
              exact f1 c (h.live_comp ha' hc').1 hu
            have hinv : Inv { w3 with
                reuse := r'
                metas := w3.metas.set e.uindex (some { m with comp := ComponentMeta.fromGeneric t })
                typeMap := mapInsert w3.typeMap t e } := by
              refine hB.inv.retable rfl hB.inv.ent ?_ (fun a ha => (hB.inv.shape a ha).ids) ?_ hB.inv.cache rfl rfl rfl rfl
                ⟨?_, ?_, ?_⟩ d2
              · exact hB.inv.loc.congr (fun _ => Iff.rfl) hinst (fun _ _ => rfl)
              · intro a ha
                refine (hB.inv.col a ha).congr ?_ (fun _ _ => rfl)
                intro c hc
                have hc' : c ∈ a.compIds := by rw [← (hB.inv.shape a ha).ids]; exact hc
                show infoFn w3.entities (w3.metas.set _ _) c = infoFn w3.entities w3.metas c
                unfold infoFn
                rw [hcomp, if_neg (hu3 a ha c hc')]
              · intro t' id hid
                simp only [mapInsert] at hid
                split at hid
                · injection hid with hid; subst hid; exact hle3.known
                · exact hB.inv.type.known t' id hid
              · intro t' id hid hl
                simp only [mapInsert] at hid
                simp only [hcomp]
                split at hid
                · rename_i ht'
                  injection hid with hid
                  rw [if_pos (by rw [hid]), ht']
                · rw [if_neg]
                  · exact hB.inv.type.comp t' id hid hl
                  · intro hu
                    have := Entities.Live.uniq hl hle3 hu
                    rw [htyp] at hid
                    exact hnk t' id hid this
              · intro t1 t2 id h1 h2
                simp only [mapInsert] at h1 h2
                split at h1
                · rename_i q1
                  injection h1 with h1
                  split at h2
                  · rename_i q2; rw [q1, q2]
                  · rw [htyp] at h2; exact absurd h1.symm (hnk t2 id h2)
                · split at h2
                  · injection h2 with h2
                    rw [htyp] at h1; exact absurd h2.symm (hnk t1 id h1)
                  · exact hB.inv.type.inj t1 t2 id h1 h2
            have hrd : Ready { w3 with
                reuse := r'
                metas := w3.metas.set e.uindex (some { m with comp := ComponentMeta.fromGeneric t })
                typeMap := mapInsert w3.typeMap t e } := by
              intro t' id hid
              show ¬ w3.entities.Worn id.uindex
              rw [hent]
              simp only [mapInsert] at hid
              split at hid
              · injection hid with hid; subst hid; exact hle.kept.2
              · rw [htyp] at hid; exact n1.1 t' id hid
            have hNT : ∀ x, NewTy w { w3 with
                reuse := r'
                metas := w3.metas.set e.uindex (some { m with comp := ComponentMeta.fromGeneric t })
                typeMap := mapInsert w3.typeMap t e } x ↔ x = e := by
              intro x
              constructor
              · rintro ⟨t', q1, q2⟩
                simp only [mapInsert] at q2
                split at q2
                · injection q2 with q2; exact q2.symm
                · rw [htyp, q1] at q2; cases q2
              · rintro rfl
                exact ⟨t, ht, by simp [mapInsert]⟩
            refine ⟨⟨hinv, hrd, fun hn => by show w3.entities.NoWrap; rw [hent]; exact n1.2 hn, ?_, ?_, ?_, ?_, ?_, ?_, hB.look, hB.locks, ?_, ?_, ?_, ?_,
              hB.log, ?_, ?_⟩, by simp [mapInsert], by first | trivial | (intro hh; cases hh), fun _ => hle3, ?_⟩
            · intro x; rw [hNT]; exact hlive3 x
            · intro x hx; show w3.entities.Kept x; rw [hent]; exact k1 x hx
            · intro x hx y hy
              rw [hNT] at hx; subst hx; exact f1 y hy
            · intro x hx
              rw [hNT] at hx; subst hx; exact u1
            · intro t' id hid
              simp only [mapInsert]
              split
              · rename_i q; rw [q, ht] at hid; cases hid
              · rw [htyp]; exact hid
            · intro x hx
              simp only [hcomp]
              rw [if_neg (f1 x hx), hB.comp, if_neg (f1 x hx)]
            · intro c hc
              rcases hB.tight c hc with hc | hc
              · exact hc
              · cases hc
            · intro c
              have := hB.used c
              simp only [List.map_nil, List.not_mem_nil, or_false] at this
              exact this
            · intro x; rw [hNT]; exact hB.row x
            · intro x c bs
              show w3.Has x c bs ↔ _
              by_cases hx : x = e
              · subst hx
                rw [hB.self]
                simp only [List.not_mem_nil, false_iff]
                intro hh
                exact u1 (h.row_live (h.has_live hh)).kept
              · exact hB.others x hx c bs
            · have := hB.evs
              unfold valEvs at this
              rw [List.flatMap_nil, List.append_nil] at this
              exact this
            · intro hsz hr
              have hr3 := hB.roomy rfl (by decide) hr
              refine ⟨hr3.1, ?_⟩
              intro m' hm'
              rcases List.mem_or_eq_of_mem_set hm' with hm' | hm'
              · exact hr3.2 m' hm'
              · injection hm' with hm'
                rw [hm']
                exact hsz t ht (by simp [mapInsert])
            · intro t' ht'
              simp only [mapInsert, if_neg ht']
              rw [htyp]
    · rintro f w1 ⟨rfl, q1, s', rfl, q2, q3, q4, q5⟩
      exact ⟨rfl, q1, trivial, Grow.ofEntities q2 q3 q4 q5, rfl⟩

end World
end Ellecs
