import Verif.Proofs.Spawn
/-! # Calls on builders -/
namespace Ellecs
namespace World

theorem infoIs_iff {w : World} (h : Inv w) {c : EcsId} {m : ComponentMeta} :
    w.InfoIs c m ↔ w.Row c ∧ compOf w.metas c.uindex = some m := by
  constructor
  · rintro ⟨im, hm⟩
    rcases getEntityMeta_spec h c with ⟨h1, _⟩ | ⟨h1, _⟩ | ⟨h1, _⟩ | ⟨im', c', h1, _, _, h4, h5⟩
    · rw [hm] at h1; cases h1
    · rw [hm] at h1; cases h1
    · rw [hm] at h1; cases h1
    · rw [hm] at h1
      injection h1 with h1; injection h1 with h1; injection h1 with h1 h2
      subst h1; subst h2
      exact ⟨(row_iff c).2 ⟨_, _, h5⟩, h4⟩
  · rintro ⟨hr, hc⟩
    obtain ⟨im, c', h1, _, _, h4, _⟩ := getEntityMeta_row h hr
    rw [hc] at h4; injection h4 with h4; subst h4
    exact ⟨im, h1⟩

theorem InfoIs.uniq {w : World} {c : EcsId} {m m' : ComponentMeta} (h : w.InfoIs c m) (h' : w.InfoIs c m') : m = m' := by
  obtain ⟨i, h⟩ := h
  obtain ⟨i', h'⟩ := h'
  rw [h] at h'
  simp only [Except.ok.injEq, Option.some.injEq, EntityMeta.mk.injEq] at h'
  exact h'.2

theorem Inv.row_info {w : World} (h : Inv w) {c : EcsId} (hr : w.Row c) : ∃ m, w.InfoIs c m := by
  obtain ⟨im, m, h1, _⟩ := getEntityMeta_row h hr
  exact ⟨m, im, h1⟩

/-- The id of a type that is alive is built and has the layout of the type. -/
theorem Inv.type_info {w : World} (h : Inv w) {t : Ty} {id : EcsId} (ht : w.typeMap t = some id)
    (hl : w.entities.Live id) : w.InfoIs id (ComponentMeta.fromGeneric t) := by
  have hc := h.type.comp t id ht hl
  have hr : w.Row id := by
    apply Classical.byContradiction
    intro hr
    have := (h.inst_none hl).2 hr
    rw [inst_none_iff_comp] at this
    rw [this] at hc; cases hc
  exact (infoIs_iff h).2 ⟨hr, hc⟩

theorem Grow.info {w w' : World} (h : Grow w w') (hi : Inv w) {c : EcsId} {m : ComponentMeta} (hc : w.InfoIs c m) :
    w'.InfoIs c m := by
  rw [infoIs_iff hi] at hc
  rw [infoIs_iff h.inv, h.row, h.comp c (hi.row_live hc.1)]
  exact ⟨Or.inl hc.1, hc.2⟩

theorem valsOk_iff {w : World} {vals : List (EcsId × Bytes)} :
    ValsOk w vals ↔ ∀ p ∈ vals, ∃ m, w.InfoIs p.1 m ∧ p.2.length = m.layout.size := by
  unfold ValsOk InfoIs
  constructor
  · intro h p hp
    obtain ⟨im, m, h1, h2⟩ := h p hp
    exact ⟨m, ⟨im, h1⟩, h2⟩
  · intro h p hp
    obtain ⟨m, ⟨im, h1⟩, h2⟩ := h p hp
    exact ⟨im, m, h1, h2⟩

/-- A builder that has not been built, with the given values. -/
structure BOk (w : World) (b : Builder) (vals : List (EcsId × Bytes)) : Prop where
  packed : Packed b vals
  vals : ValsOk w vals
  live : w.entities.Live b.entity
  unbuilt : ¬ w.Row b.entity

theorem Grow.unbuilt {w w' : World} (h : Grow w w') {e : EcsId} (hl : w.entities.Live e) (hr : ¬ w.Row e) : ¬ w'.Row e := by
  rw [h.row]
  rintro (h1 | h1)
  · exact hr h1
  · exact h.unknown e h1 hl.kept

theorem BOk.grow {w w' : World} (h : Grow w w') (hi : Inv w) {b : Builder} {vals : List (EcsId × Bytes)} (hb : BOk w b vals) :
    BOk w' b vals := by
  refine ⟨hb.packed, ?_, (h.live _).2 (Or.inl hb.live), h.unbuilt hb.live hb.unbuilt⟩
  rw [valsOk_iff] at *
  intro p hp
  obtain ⟨m, h1, h2⟩ := valsOk_iff.1 hb.vals p hp
  exact ⟨m, h.info hi h1, h2⟩

end World

namespace Builder

/-- `b'` is `b` with one more value. -/
structure Ext (b b' : Builder) (id : EcsId) (v : Bytes) : Prop where
  blk : Blk b'
  ids : b'.compIds = b.compIds ++ [id]
  data : b'.data.take b'.len = b.data.take b.len ++ v
  entity : b'.entity = b.entity
  cmeta : b'.cmeta = b.cmeta

theorem Ext.packed {b b' : Builder} {id : EcsId} {v : Bytes} (h : Ext b b' id v) {vals : List (EcsId × Bytes)}
    (hb : World.Packed b vals) : World.Packed b' (vals ++ [(id, v)]) :=
  ⟨h.blk.block, h.blk.len, by rw [h.data, hb.data]; simp, by rw [h.ids, hb.ids]; simp⟩

theorem realloc_spec {b : Builder} (hb : Blk b) {n : Nat} (hn : b.cap < n) :
    (b.realloc n = .error .builderCapacity ∧ isizeMax ≤ n) ∨
    (∃ b', b.realloc n = .ok b' ∧ n < isizeMax ∧ b'.cap = n ∧ b'.data.length = n ∧ b'.len = b.len ∧ b'.compIds = b.compIds ∧
      b'.data.take b.len = b.data.take b.len ∧ b'.entity = b.entity ∧ b'.cmeta = b.cmeta) := by
  unfold realloc
  by_cases h1 : n < isizeMax
  · rw [if_neg (by simpa using h1), if_neg (show ¬ ¬ n > 0 by omega)]
    right
    by_cases h2 : b.cap = 0
    · rw [if_pos h2]
      refine ⟨_, rfl, h1, rfl, by simp, rfl, rfl, ?_, rfl, rfl⟩
      have : b.len = 0 := by have := hb.len; omega
      rw [this]; simp
    · rw [if_neg h2, if_pos hb.block]
      refine ⟨_, rfl, h1, rfl, ?_, rfl, rfl, ?_, rfl, rfl⟩
      · simp only [List.length_append, List.length_take, List.length_replicate, hb.block]
        omega
      · have hl := hb.len
        have hbl := hb.block
        simp only
        rw [List.take_of_length_le (l := b.data) (i := n) (by omega), List.take_append_of_le_length (by omega)]
  · rw [if_pos h1]
    exact Or.inl ⟨rfl, by omega⟩

/-- The buffer would exceed the limit of the allocator. -/
def Full (b : Builder) (size : Nat) : Prop := b.cap < b.len + size ∧ isizeMax ≤ max (b.len + size) (b.cap * 2)

theorem withDynamicWithData_spec {b : Builder} (hb : Blk b) {w : World} (h : w.Inv) {src : Bytes} {id : EcsId}
    (hsrc : ∀ m, w.InfoIs id m → m.layout.size ≤ src.length) :
    (b.withDynamicWithData src id w = .error .noGeneration ∧ w.isAlive id = .error .noGeneration) ∨
    (b.withDynamicWithData src id w = .error .deadComponent ∧ ¬ w.Row id) ∨
    (∃ m, w.InfoIs id m ∧ b.withDynamicWithData src id w = .error .builderCapacity ∧ b.Full m.layout.size) ∨
    (∃ b' m, b.withDynamicWithData src id w = .ok b' ∧ w.InfoIs id m ∧ Ext b b' id (src.take m.layout.size)) := by
  unfold withDynamicWithData
  rcases World.getEntityMeta_spec h id with ⟨h1, h2⟩ | ⟨h1, h2⟩ | ⟨h1, h2, h3, h4⟩ | ⟨im, m, h1, h2, h3, h4, h5⟩
  · left
    refine ⟨by rw [h1], ?_⟩
    unfold World.isAlive Entities.isAlive
    rw [List.getElem?_eq_none h2]
  · right; left
    exact ⟨by rw [h1], fun hr => h2 (h.row_live hr)⟩
  · right; left
    exact ⟨by rw [h1], h4⟩
  · right; right
    have hinfo : w.InfoIs id m := ⟨im, h1⟩
    have hs := hsrc m hinfo
    rw [h1]
    simp only
    have key : ∀ b1 : Builder, b1.data.length = b1.cap → b1.len = b.len → b1.compIds = b.compIds →
        b1.data.take b.len = b.data.take b.len → b1.entity = b.entity → b1.cmeta = b.cmeta → b.len + m.layout.size ≤ b1.cap →
        ∃ b', (if src.length < m.layout.size then (.error (.ub .srcTooShort) : Except Fault Builder)
          else if b1.len + m.layout.size > b1.data.length then .error (.ub .writeOob)
          else .ok { b1 with
            data := writeAt b1.data b1.len (src.take m.layout.size)
            len := b1.len + m.layout.size
            compIds := b1.compIds ++ [id]
            num := b1.num + 1 }) = .ok b' ∧ Ext b b' id (src.take m.layout.size) := by
      intro b1 k1 k2 k3 k4 k5 k6 k7
      rw [if_neg (by omega), if_neg (by omega)]
      have hlt : (src.take m.layout.size).length = m.layout.size := by rw [List.length_take]; omega
      have hwl : (writeAt b1.data b1.len (src.take m.layout.size)).length = b1.cap := by
        rw [length_writeAt _ _ _ (by rw [hlt]; omega), k1]
      refine ⟨_, rfl, ⟨hwl, by simp only; omega⟩, by simp only; rw [k3], ?_, k5, k6⟩
      simp only
      unfold writeAt
      rw [List.append_assoc, List.take_append]
      rw [List.take_of_length_le (l := List.take b1.len b1.data) (i := b1.len + m.layout.size) (by rw [List.length_take]; omega)]
      rw [List.length_take, Nat.min_eq_left (by omega), Nat.add_sub_cancel_left, List.take_append_of_le_length (by omega),
        List.take_of_length_le (l := List.take m.layout.size src) (by omega), k2, k4]
    by_cases hc : b.len + m.layout.size > b.cap
    · rw [if_pos hc]
      rcases realloc_spec hb (n := max (b.len + m.layout.size) (b.cap * 2)) (by omega) with ⟨r1, r2⟩ | ⟨b1, r1, r2, r3, r4, r5, r6, r7, r8, r9⟩
      · left
        exact ⟨m, hinfo, by rw [r1], hc, r2⟩
      · right
        rw [r1]
        obtain ⟨b', k1, k2⟩ := key b1 (by omega) r5 r6 r7 r8 r9 (by omega)
        exact ⟨b', m, k1, hinfo, k2⟩
    · rw [if_neg hc]
      right
      obtain ⟨b', k1, k2⟩ := key b hb.block rfl rfl rfl rfl rfl (by omega)
      exact ⟨b', m, k1, hinfo, k2⟩

theorem withDynamic_spec {b : Builder} (hb : Blk b) {w : World} (h : w.Inv) {id : EcsId} :
    (b.withDynamic id w = .error .noGeneration ∧ w.isAlive id = .error .noGeneration) ∨
    (b.withDynamic id w = .error .unwrapNone ∧ ¬ w.Row id) ∨
    (∃ m, w.InfoIs id m ∧ b.withDynamic id w = .error .componentHasData ∧ m.layout.size ≠ 0) ∨
    (∃ b' m, b.withDynamic id w = .ok b' ∧ w.InfoIs id m ∧ m.layout.size = 0 ∧ Ext b b' id []) := by
  unfold withDynamic
  rcases World.getEntityMeta_spec h id with ⟨h1, h2⟩ | ⟨h1, h2⟩ | ⟨h1, h2, h3, h4⟩ | ⟨im, m, h1, h2, h3, h4, h5⟩
  · left
    refine ⟨by rw [h1], ?_⟩
    unfold World.isAlive Entities.isAlive
    rw [List.getElem?_eq_none h2]
  · right; left
    exact ⟨by rw [h1], fun hr => h2 (h.row_live hr)⟩
  · right; left
    exact ⟨by rw [h1], h4⟩
  · right; right
    rw [h1]
    simp only
    by_cases hs : m.layout.size = 0
    · right
      rw [if_neg (by simpa using hs)]
      exact ⟨_, m, rfl, ⟨im, h1⟩, hs, ⟨hb.block, hb.len⟩, rfl, by simp, rfl, rfl⟩
    · left
      exact ⟨m, ⟨im, h1⟩, by rw [if_pos hs], hs⟩

end Builder

namespace World

/-- Why a call on a builder was rejected. -/
def Refused (w : World) (b : Builder) : BAct → Fault → Prop
  | .with t _, f =>
    (f = .outOfIds ∧ 2 ^ 32 ≤ w.entities.generations.length ∧ w.typeMap t = none) ∨
    (f = .deadComponent ∧ ∃ id, w.typeMap t = some id ∧ ¬ w.Alive id) ∨
    (f = .builderCapacity ∧ b.Full t.size)
  | .withDynamic id, f =>
    (f = .noGeneration ∧ w.isAlive id = .error .noGeneration) ∨ (f = .unwrapNone ∧ ¬ w.Row id) ∨
    (f = .componentHasData ∧ ∃ m, w.InfoIs id m ∧ m.layout.size ≠ 0)
  | .withDynamicWithData id _, f =>
    (f = .noGeneration ∧ w.isAlive id = .error .noGeneration) ∨ (f = .deadComponent ∧ ¬ w.Row id) ∨
    (f = .builderCapacity ∧ ∃ m, w.InfoIs id m ∧ b.Full m.layout.size)
  | .build, _ => False

theorem Gives.grow {w w' : World} (h : Grow w w') (hi : Inv w) {a : BAct} {c : EcsId} {bs : Bytes} (hg : Gives w a c bs) :
    Gives w' a c bs := by
  cases a with
  | «with» t v => exact ⟨h.typ _ _ hg.1, hg.2⟩
  | withDynamic id => exact hg
  | withDynamicWithData id v =>
    obtain ⟨h1, m, h2, h3⟩ := hg
    exact ⟨h1, m, h.info hi h2, h3⟩
  | build => exact hg

theorem Gives.uniq {w : World} {a : BAct} {c c' : EcsId} {bs bs' : Bytes} (h : Gives w a c bs) (h' : Gives w a c' bs') :
    c = c' ∧ bs = bs' := by
  cases a with
  | «with» t v =>
    obtain ⟨h1, h2⟩ := h
    obtain ⟨h3, h4⟩ := h'
    rw [h1] at h3
    injection h3 with h3
    exact ⟨h3, h2.trans h4.symm⟩
  | withDynamic id => exact ⟨h.1.trans h'.1.symm, h.2.trans h'.2.symm⟩
  | withDynamicWithData id v =>
    obtain ⟨h1, m, h2, h3⟩ := h
    obtain ⟨h4, m', h5, h6⟩ := h'
    have := h2.uniq h5
    subst this
    exact ⟨h1.trans h4.symm, h3.trans h6.symm⟩
  | build => exact h.elim

/-- What one `with..` call does to a builder (built or not). -/
theorem act_spec {w : World} (h : Inv w) (hn : w.Ready) {b : Builder} (hb : Builder.Blk b) {a : BAct} (hf : CallOk w b a)
    (hnb : a ≠ .build) :
    Tri (b.act a) w
      (fun b' w' => Grow w w' ∧ (∀ t, (∀ v, a ≠ .with t v) → w'.typeMap t = w.typeMap t) ∧
        ∃ id v m, Gives w' a id v ∧ Builder.Ext b b' id v ∧ w'.InfoIs id m ∧ v.length = m.layout.size)
      (fun f w' => Grow w w' ∧ (∀ t, (∀ v, a ≠ .with t v) → w'.typeMap t = w.typeMap t) ∧ Refused w b a f) := by
  unfold Builder.act
  have hdrop : ∀ (a : BAct) (f : Fault) (w' : World), Grow w w' ∧ (∀ t, (∀ v, a ≠ .with t v) → w'.typeMap t = w.typeMap t) ∧ Refused w b a f →
      ∃ r, b.drop w' = .ok () { w' with reuse := r } ∧ Grow w { w' with reuse := r } ∧
        (∀ t, (∀ v, a ≠ .with t v) → w'.typeMap t = w.typeMap t) ∧ Refused w b a f := by
    rintro a f w' ⟨g, g2, hr⟩
    obtain ⟨r, d1, d2⟩ := Builder.drop_spec hb g.inv
    exact ⟨r, d1, g.reuse r d2, g2, hr⟩
  refine tri_orDrop (E' := fun f w' => Grow w w' ∧ (∀ t, (∀ v, a ≠ .with t v) → w'.typeMap t = w.typeMap t) ∧ Refused w b a f) ?_ (hdrop a)
  cases a with
  | «with» t v =>
    simp only
    rw [tri_bind]
    refine (getOrCreate_spec h hn t).imp ?_ ?_
    · rintro id w1 ⟨g, q1, q2, q3, q4⟩
      simp only [tri_bind, tri_get, tri_liftE]
      have hty : ∀ t', (∀ v', BAct.with t v ≠ .with t' v') → w1.typeMap t' = w.typeMap t' := by
        intro t' ht'
        refine q4 t' ?_
        rintro rfl
        exact ht' v rfl
      have hinf : ∀ m, w1.InfoIs id m → m = ComponentMeta.fromGeneric t := by
        intro m hm
        have hm' := (infoIs_iff g.inv).1 hm
        have := g.inv.type.comp t id q1 (g.inv.row_live hm'.1)
        rw [hm'.2] at this
        injection this
      have hv : v.length = t.size := hf
      rcases Builder.withDynamicWithData_spec hb g.inv (src := v) (id := id) (by
          intro m hm; rw [hinf m hm, hv]; exact Nat.le_refl _) with
        ⟨r1, r2⟩ | ⟨r1, r2⟩ | ⟨m, r1, r2, r3⟩ | ⟨b', m, r1, r2, r3⟩
      · exfalso
        obtain ⟨a, gg, hk, _⟩ := g.inv.type.known t id q1
        unfold World.isAlive Entities.isAlive at r2
        rw [hk] at r2
        cases r2
      · rw [r1]
        refine ⟨g, hty, Or.inr (Or.inl ⟨rfl, id, ?_⟩)⟩
        cases ht : w.typeMap t with
        | none =>
          exfalso
          have := g.inv.type_info q1 (q3 ht)
          exact r2 ((infoIs_iff g.inv).1 this).1
        | some id' =>
          have := g.typ t id' ht
          rw [q1] at this
          injection this with this
          subst this
          refine ⟨rfl, ?_⟩
          intro hl
          rw [alive_iff] at hl
          have := g.inv.type_info q1 ((g.live id).2 (Or.inl hl))
          exact r2 ((infoIs_iff g.inv).1 this).1
      · rw [r2]
        have := hinf m r1
        subst this
        exact ⟨g, hty, Or.inr (Or.inr ⟨rfl, r3⟩)⟩
      · rw [r1]
        have := hinf m r2
        subst this
        have hvt : v.take (ComponentMeta.fromGeneric t).layout.size = v := by
          rw [List.take_of_length_le]; rw [hv]; exact Nat.le_refl _
        rw [hvt] at r3
        exact ⟨g, hty, id, v, _, ⟨q1, rfl⟩, r3, r2, hv⟩
    · rintro f w1 ⟨rfl, q1, q2, q3, q4⟩
      exact ⟨q3, fun t' _ => by rw [q4], Or.inl ⟨rfl, q1, q2⟩⟩
  | withDynamic id =>
    simp only [tri_bind, tri_get, tri_liftE]
    rcases Builder.withDynamic_spec hb h (id := id) with
      ⟨r1, r2⟩ | ⟨r1, r2⟩ | ⟨m, r1, r2, r3⟩ | ⟨b', m, r1, r2, r3, r4⟩
    · rw [r1]; exact ⟨Grow.refl h hn, fun _ _ => trivial, Or.inl ⟨rfl, r2⟩⟩
    · rw [r1]; exact ⟨Grow.refl h hn, fun _ _ => trivial, Or.inr (Or.inl ⟨rfl, r2⟩)⟩
    · rw [r2]; exact ⟨Grow.refl h hn, fun _ _ => trivial, Or.inr (Or.inr ⟨rfl, m, r1, r3⟩)⟩
    · rw [r1]
      exact ⟨Grow.refl h hn, fun _ _ => trivial, id, [], m, ⟨rfl, rfl⟩, r4, r2, r3.symm⟩
  | withDynamicWithData id v =>
    simp only [tri_bind, tri_get, tri_liftE]
    rcases Builder.withDynamicWithData_spec hb h (src := v) (id := id) hf with
      ⟨r1, r2⟩ | ⟨r1, r2⟩ | ⟨m, r1, r2, r3⟩ | ⟨b', m, r1, r2, r3⟩
    · rw [r1]; exact ⟨Grow.refl h hn, fun _ _ => trivial, Or.inl ⟨rfl, r2⟩⟩
    · rw [r1]; exact ⟨Grow.refl h hn, fun _ _ => trivial, Or.inr (Or.inl ⟨rfl, r2⟩)⟩
    · rw [r2]; exact ⟨Grow.refl h hn, fun _ _ => trivial, Or.inr (Or.inr ⟨rfl, m, r1, r3⟩)⟩
    · rw [r1]
      refine ⟨Grow.refl h hn, fun _ _ => trivial, id, _, m, ⟨rfl, m, r2, rfl⟩, r3, r2, ?_⟩
      rw [List.length_take]
      have := hf m r2
      omega
  | build => exact absurd rfl hnb

/-- What `build` does, with the builder dropped on a panic. -/
theorem act_build_spec {w : World} (h : Inv w) {b : Builder} {vals : List (EcsId × Bytes)} (hb : BOk w b vals)
    (hnd : b.compIds.Nodup) :
    Tri (b.act .build) w
      (fun b' w' => Builder.Blk b' ∧ b'.entity = b.entity ∧ Built w w' b.entity vals b.cmeta)
      (fun f _ => vals ≠ [] ∧ Limit f ∧ ¬ w.Roomy) := by
  unfold Builder.act
  have hbs := build_spec h hb.packed hb.vals (by rw [← hb.packed.ids]; exact hnd) hb.live ((h.inst_none hb.live).2 hb.unbuilt)
  unfold Tri Builder.orDrop at *
  simp only
  cases hx : b.build w with
  | ok b' w' =>
    rw [hx] at hbs
    obtain ⟨h1, h2⟩ := hbs
    refine ⟨?_, ?_, h2⟩
    · rcases h1 with rfl | rfl
      · exact hb.packed.blk
      · exact ⟨hb.packed.block, hb.packed.len⟩
    · rcases h1 with rfl | rfl <;> rfl
  | error f w' =>
    rw [hx] at hbs
    obtain ⟨h1, h2, h3⟩ := hbs
    obtain ⟨w'', hd⟩ : ∃ w'', b.drop w' = .ok () w'' := by
      unfold Builder.drop
      split
      · cases w'.reuse with
        | none => exact ⟨_, rfl⟩
        | some x => exact ⟨w', by simp only [hb.packed.block, if_true]⟩
      · exact ⟨_, rfl⟩
    simp only [hd]
    exact ⟨h1, h2, h3⟩

end World
end Ellecs
