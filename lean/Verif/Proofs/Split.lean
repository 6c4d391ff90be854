import Verif.Proofs.Laws
import Verif.Proofs.Safe
import Verif.Spec.Split
/-!
# A builder does at once what the calls do one by one
-/
namespace Ellecs
namespace AWorld

theorem lookup_snoc (vals : List (EcsId × Bytes)) {c : EcsId} {v : Bytes} (hc : c ∉ vals.map Prod.fst) (y : EcsId) :
    (vals ++ [(c, v)]).lookup y = if y = c then some v else vals.lookup y := by
  induction vals with
  | nil =>
    by_cases h : y = c
    · simp [List.lookup, h]
    · simp [List.lookup, h, beq_eq_false_iff_ne.2 h]
  | cons p vals ih =>
    obtain ⟨d, u⟩ := p
    simp only [List.map_cons, List.mem_cons, not_or] at hc
    by_cases h : y = d
    · subst h
      simp [List.lookup, Ne.symm hc.1]
    · simp only [List.cons_append, List.lookup, beq_eq_false_iff_ne.2 h]
      exact ih hc.2

theorem lookup_fresh (vals : List (EcsId × Bytes)) {c : EcsId} (hc : c ∉ vals.map Prod.fst) : vals.lookup c = none := by
  induction vals with
  | nil => rfl
  | cons p vals ih =>
    simp only [List.map_cons, List.mem_cons, not_or] at hc
    simp only [List.lookup, beq_eq_false_iff_ne.2 hc.1]
    exact ih hc.2

/-- A component is added to an entity that was just built. -/
theorem addDyn_finish {a : AWorld} {d : Draft} {c : EcsId} {v : Bytes} {m : ComponentMeta} (he : a.isAlive d.entity = .ok true)
    (hc : a.isAlive c = .ok true) (hm : a.info c = some m) (hce : c ≠ d.entity) (hnew : c ∉ d.vals.map Prod.fst) :
    (a.finish d).addDyn d.entity c v = (.ok (), a.finish { d with vals := d.vals ++ [(c, v.take m.layout.size)] }) := by
  have he' : (a.finish d).isAlive d.entity = .ok true := he
  have hc' : (a.finish d).isAlive c = .ok true := hc
  have hi : (a.finish d).info d.entity = some d.cmeta := by simp [finish, use, addLocks]
  have hm' : (a.finish d).info c = some m := by simp [finish, use, addLocks, hce, hm]
  have hcell : (a.finish d).cell d.entity c = none := by simp [finish, use, addLocks, lookup_fresh _ hnew]
  unfold addDyn
  rw [he', hc']
  simp only [hi, hcell, hm']
  refine Prod.ext rfl (ext' rfl rfl (fun _ => rfl) ?_ ?_ ?_)
  · intro x y
    simp only [finish, use, addLocks, lookup_snoc _ hnew]
    by_cases hx : x = d.entity <;> by_cases hy : y = c <;> simp [hx, hy]
  · intro x
    simp only [finish, use, addLocks, List.map_append, List.map_cons, List.map_nil, List.contains_append, Bool.or_assoc]
  · intro x
    simp only [finish, use, addLocks, List.map_append, List.mem_append, List.map_cons, List.map_nil, List.mem_singleton]
    by_cases h1 : x ∈ d.vals.map Prod.fst
    · have h1' := eq_true h1
      by_cases h3 : a.lock x = none
      · simp only [h1', h3, and_self, true_or, if_true, reduceCtorEq, and_false, if_false]
      · simp only [h3, and_false, if_false]
    · have h1' := eq_false h1
      simp only [h1', false_and, if_false, false_or]

/-- Registering a type and building an entity do not interfere. -/
theorem register_finish {a a' : AWorld} {d : Draft} {t : Ty} {c : EcsId} (hf : ∀ id s, a.ents.spawn = (.ok id, s) → id ≠ d.entity)
    (h : a.register t = (.ok c, a')) : (a.finish d).register t = (.ok c, a'.finish d) ∧ a'.info d.entity = a.info d.entity := by
  unfold register at h ⊢
  have ht : (a.finish d).types t = a.types t := rfl
  rw [ht]
  cases hx : a.types t with
  | some id => rw [hx] at h; simp only [Prod.mk.injEq, Except.ok.injEq] at h ⊢; obtain ⟨rfl, rfl⟩ := h; exact ⟨⟨rfl, rfl⟩, rfl⟩
  | none =>
    rw [hx] at h
    unfold spawnId at h ⊢
    have he : (a.finish d).ents = a.ents := rfl
    rw [he]
    cases hs : a.ents.spawn with
    | mk r s =>
      rw [hs] at h
      cases r with
      | error f => simp only [Prod.mk.injEq, reduceCtorEq, false_and] at h
      | ok id =>
        simp only [Prod.mk.injEq, Except.ok.injEq] at h ⊢
        obtain ⟨rfl, rfl⟩ := h
        have hne := hf _ _ hs
        refine ⟨⟨rfl, ext' rfl rfl ?_ (fun _ _ => rfl) (fun _ => rfl) (fun _ => rfl)⟩, by simp [Ne.symm hne]⟩
        intro x
        simp only [finish, use, addLocks]
        by_cases h1 : x = d.entity
        · subst h1; simp [Ne.symm hne]
        · simp [h1]

theorem acts_append (xs ys : List BAct) : ∀ (d : Draft) (a : AWorld),
    acts d (xs ++ ys) a = (match acts d xs a with | (.error f, a) => (.error f, a) | (.ok d, a) => acts d ys a) := by
  induction xs with
  | nil => intro d a; rfl
  | cons x xs ih =>
    intro d a
    simp only [List.cons_append, acts]
    cases a.act d x with
    | mk r a' =>
      cases r with
      | error f => rfl
      | ok d' => exact ih d' a'

end AWorld

namespace WorldSpec
open World

/-- The components given before are still there. -/
theorem give_vals {a a' : AWorld} {c : EcsId} {v : Bytes} {d d' : AWorld.Draft} (h : a.give c v d = (.ok d', a')) :
    ∃ m, a.info c = some m ∧ a' = a ∧ d' = { d with vals := d.vals ++ [(c, v.take m.layout.size)] } := by
  unfold AWorld.give at h
  cases h1 : a.isAlive c with
  | error f => rw [h1] at h; simp at h
  | ok b =>
    rw [h1] at h
    simp only at h
    cases h2 : a.info c with
    | none => rw [h2] at h; simp at h
    | some m =>
      rw [h2] at h
      simp only [Prod.mk.injEq, Except.ok.injEq] at h
      exact ⟨m, rfl, h.2.symm, h.1.symm⟩

/-- The entity of a draft is not what the allocator hands out next. -/
theorem spawn_other {w : World} (h : Inv w) {e : EcsId} (hl : w.entities.Live e) {id : EcsId} {s : Entities} (hs : w.entities.spawn = (.ok id, s)) : id ≠ e := by
  rcases Entities.spawn_spec h.ent with ⟨s', e1, _⟩ | ⟨x, s', e1, e2, e3, e4, e5, e6⟩
  · rw [e1] at hs; simp at hs
  · rw [e1] at hs
    simp only [Prod.mk.injEq, Except.ok.injEq] at hs
    obtain ⟨rfl, _⟩ := hs
    exact fun hh => e4 e hl (by rw [hh])

theorem infoAlive {w : World} {a : AWorld} (ha : w.Shows a) (h : Inv w) {c : EcsId} {m : ComponentMeta} (hm : a.info c = some m) :
    a.isAlive c = .ok true := by
  rw [ha.alive]
  exact alive_iff.2 (h.row_live ((infoIs_iff h).1 ((ha.info c m).1 hm)).1)

theorem act_entity {a a' : AWorld} {d d' : AWorld.Draft} {x : BAct} (hk : a.act d x = (.ok d', a')) : d'.entity = d.entity := by
  cases x with
  | build => simp only [AWorld.act, Prod.mk.injEq, Except.ok.injEq] at hk; rw [hk.1]
  | withDynamicWithData c v => obtain ⟨m, _, _, rfl⟩ := give_vals hk; rfl
  | «with» t v =>
    simp only [AWorld.act] at hk
    split at hk
    · simp at hk
    · obtain ⟨m, _, _, rfl⟩ := give_vals hk; rfl
  | withDynamic c =>
    simp only [AWorld.act] at hk
    split at hk
    · simp at hk
    · split at hk
      · simp at hk
      · split at hk
        · simp at hk
        · simp only [Prod.mk.injEq, Except.ok.injEq] at hk; rw [← hk.1]

/-- One call on a builder, and the same call on the entity if it had been built before. -/
theorem act_add {w w' : World} {a a' : AWorld} {d d' : AWorld.Draft} {x : BAct} (h : Inv w) (ha : w.Shows a) (hl : w.entities.Live d.entity)
    (hu : a.info d.entity = none) (hx : x ≠ .build) (hk : a.act d x = (.ok d', a')) (h' : Inv w') (ha' : w'.Shows a') (hl' : w'.entities.Live d.entity) :
    d'.entity = d.entity ∧ a'.info d.entity = none ∧ (∃ l, d'.vals = d.vals ++ l) ∧
    ((d'.vals.map Prod.fst).Nodup → ∃ c, asAdd d.entity x = some c ∧ (a.finish d).step c = (.ok (), a'.finish d')) := by
  have hle : a'.isAlive d.entity = .ok true := by rw [ha'.alive]; exact alive_iff.2 hl'
  have hnot : ∀ {c : EcsId} {v : Bytes}, ((d.vals ++ [(c, v)]).map Prod.fst).Nodup → c ∉ d.vals.map Prod.fst := by
    intro c v hn hc
    rw [List.map_append, List.nodup_append] at hn
    exact hn.2.2 c hc c (by simp) rfl
  cases x with
  | build => exact absurd rfl hx
  | «with» t v =>
    simp only [AWorld.act] at hk
    cases hr : a.register t with
    | mk r a1 =>
      rw [hr] at hk
      cases r with
      | error f => simp at hk
      | ok c =>
        simp only at hk
        obtain ⟨m, hm, rfl, rfl⟩ := give_vals hk
        obtain ⟨q1, q2⟩ := AWorld.register_finish (d := d) (fun id s hs => spawn_other h hl (by rw [← ha.ents]; exact hs)) hr
        rw [hu] at q2
        refine ⟨rfl, q2, ⟨_, rfl⟩, fun hn => ⟨_, rfl, ?_⟩⟩
        have hal : (a.finish d).isAlive d.entity = .ok true := by
          show a.isAlive d.entity = _
          rw [ha.alive]; exact alive_iff.2 hl
        simp only [AWorld.step, AWorld.addComponent, hal, q1]
        exact AWorld.addDyn_finish hle (infoAlive ha' h' hm) hm (fun hh => by rw [hh, q2] at hm; cases hm) (hnot hn)
  | withDynamicWithData c v =>
    obtain ⟨m, hm, rfl, rfl⟩ := give_vals hk
    refine ⟨rfl, hu, ⟨_, rfl⟩, fun hn => ⟨_, rfl, ?_⟩⟩
    exact AWorld.addDyn_finish hle (infoAlive ha' h' hm) hm (fun hh => by rw [hh, hu] at hm; cases hm) (hnot hn)
  | withDynamic c =>
    simp only [AWorld.act] at hk
    cases h1 : a.isAlive c with
    | error f => rw [h1] at hk; simp at hk
    | ok b =>
      rw [h1] at hk
      simp only at hk
      cases hm : a.info c with
      | none => rw [hm] at hk; simp at hk
      | some m =>
        rw [hm] at hk
        simp only at hk
        by_cases hz : m.layout.size = 0
        · simp only [hz, ne_eq, not_true_eq_false, if_false, Prod.mk.injEq, Except.ok.injEq] at hk
          obtain ⟨rfl, rfl⟩ := hk
          refine ⟨rfl, hu, ⟨_, rfl⟩, fun hn => ⟨_, rfl, ?_⟩⟩
          have hce : c ≠ d.entity := fun hh => by rw [hh, hu] at hm; cases hm
          have hm' : (a.finish d).info c = some m := by simp [AWorld.finish, AWorld.use, AWorld.addLocks, hce, hm]
          have hal : (a.finish d).isAlive d.entity = .ok true := hle
          have hac : (a.finish d).isAlive c = .ok true := infoAlive ha' h' hm
          simp only [AWorld.step, AWorld.addZst, hal, hac, hm', hz, ne_eq, not_true_eq_false, if_false]
          have := AWorld.addDyn_finish (v := []) hle hac hm hce (hnot hn)
          rw [List.take_nil] at this
          exact this
        · simp [hz] at hk

/-- The hypotheses of a builder in use. -/
structure Draws (w : World) (a : AWorld) (b : Builder) (d : AWorld.Draft) : Prop where
  inv : Inv w
  nowrap : w.Ready
  shows : w.Shows a
  drafts : Drafts w b d
  unbuilt : a.info d.entity = none

theorem Draws.live {w : World} {a : AWorld} {b : Builder} {d : AWorld.Draft} (h : Draws w a b d) : BOk w b d.vals ∧ w.entities.Live d.entity := by
  have hr : ¬ w.Row b.entity := by rw [h.drafts.entity]; exact (h.shows.infoNone h.inv).1 h.unbuilt
  have := (h.drafts.vals.resolve_right hr).1
  exact ⟨this, by rw [← h.drafts.entity]; exact this.live⟩

/-- One call on a builder. -/
theorem Draws.act {w w' : World} {a : AWorld} {b b' : Builder} {d : AWorld.Draft} (h : Draws w a b d) {x : BAct} (hx : x ≠ .build)
    (hc : CallOk w b x) (hk : b.act x w = .ok b' w') :
    ∃ d' a', a.act d x = (.ok d', a') ∧ Draws w' a' b' d' ∧ d'.entity = d.entity ∧ (∃ l, d'.vals = d.vals ++ l) ∧
      ((d'.vals.map Prod.fst).Nodup → ∃ c, asAdd d.entity x = some c ∧ (a.finish d).step c = (.ok (), a'.finish d')) := by
  obtain ⟨d', e1, e2, e3, e4, e5⟩ := (bsim_act h.inv h.nowrap h.shows h.drafts hc).ok hk
  have hl := h.live.2
  have hl' : w'.entities.Live d.entity := by
    rw [← act_entity (pair_eq e1), ← e5.entity]
    rcases e5.vals with hh | hh
    · exact hh.1.live
    · exact e3.row_live hh
  obtain ⟨k1, k2, k3, k4⟩ := act_add h.inv h.shows hl h.unbuilt hx (pair_eq e1) e3 e2 hl'
  exact ⟨d', _, pair_eq e1, ⟨e3, e4, e2, e5, by rw [k1]; exact k2⟩, k1, k3, k4⟩

/-- Calls on a builder that do not build. -/
theorem Draws.acts (xs rest : List BAct) : ∀ {w w1 : World} {a : AWorld} {b b1 : Builder} {d : AWorld.Draft} (_ : Draws w a b d) (_ : BAct.build ∉ xs)
    (_ : CallsOk w b (xs ++ rest)) (_ : b.acts (xs ++ rest) w = .ok b1 w1),
    ∃ d' a' b' w', AWorld.acts d xs a = (.ok d', a') ∧ Draws w' a' b' d' ∧ d'.entity = d.entity ∧ CallsOk w' b' rest ∧ b'.acts rest w' = .ok b1 w1 := by
  induction xs with
  | nil => intro w w1 a b b1 d h _ hc hk; exact ⟨d, a, b, w, rfl, h, rfl, hc, hk⟩
  | cons x xs ih =>
    intro w w1 a b b1 d h hx hc hk
    simp only [List.mem_cons, not_or] at hx
    obtain ⟨b2, w2, q1, q2⟩ := bind_ok (x := b.act x) (f := fun b => Builder.acts b (xs ++ rest)) hk
    obtain ⟨d2, a2, r1, r2, r3, _⟩ := h.act (Ne.symm hx.1) hc.head q1
    obtain ⟨d3, a3, b3, w3, s1, s2, s3, s4, s5⟩ := ih r2 hx.2 (CallsOk.tail hc q1) q2
    exact ⟨d3, a3, b3, w3, by rw [AWorld.acts, r1]; exact s1, s2, s3.trans r3, s4, s5⟩

/-- The last calls before `build`, and the same calls after `build`. -/
theorem Draws.adds (ys : List BAct) : ∀ {w w1 : World} {a : AWorld} {b b1 : Builder} {d : AWorld.Draft} (_ : Draws w a b d) (_ : BAct.build ∉ ys)
    (_ : CallsOk w b (ys ++ [.build])) (_ : b.acts (ys ++ [.build]) w = .ok b1 w1),
    (d.vals.map Prod.fst).Nodup ∧ ∃ a1, w1.Shows a1 ∧
      (a.finish d).answers ((ys.filterMap (asAdd d.entity)).map .call) = (ys.map (fun _ => .ok .unit), a1) := by
  induction ys with
  | nil =>
    intro w w1 a b b1 d h _ hc hk
    obtain ⟨b2, w2, q1, q2⟩ := bind_ok (x := b.act .build) (f := fun b => Builder.acts b []) hk
    obtain ⟨d2, e1, e2, _⟩ := (bsim_act h.inv h.nowrap h.shows h.drafts hc.head).ok q1
    have : w2 = w1 := by
      simp only [Builder.acts, pure, EStateM.pure, EStateM.Result.ok.injEq] at q2; exact q2.2
    subst this
    exact ⟨by rw [← h.live.1.packed.ids]; exact hc.head.2, _, e2, rfl⟩
  | cons y ys ih =>
    intro w w1 a b b1 d h hx hc hk
    simp only [List.mem_cons, not_or] at hx
    obtain ⟨b2, w2, q1, q2⟩ := bind_ok (x := b.act y) (f := fun b => Builder.acts b (ys ++ [BAct.build])) hk
    obtain ⟨d2, a2, r1, r2, r3, ⟨l, r4⟩, r5⟩ := h.act (Ne.symm hx.1) hc.head q1
    obtain ⟨s1, a1, s2, s3⟩ := ih r2 hx.2 (CallsOk.tail hc q1) q2
    obtain ⟨c, t1, t2⟩ := r5 s1
    rw [r4, List.map_append] at s1
    refine ⟨(List.nodup_append.1 s1).1, a1, s2, ?_⟩
    rw [r3] at s3
    simp only [List.filterMap_cons, t1, List.map_cons, AWorld.answers, AWorld.ask, t2, s3]
    rfl

/-- Of a chain, the last calls may as well be made after `build`. -/
theorem spawn_split {w w1 : World} (h : Inv w) (hn : w.Ready) {a : AWorld} (ha : w.Shows a) {kind : SpawnKind} {xs ys : List BAct} {e : EcsId}
    (hx : BAct.build ∉ xs) (hy : BAct.build ∉ ys) (hc : ChainOk w kind (xs ++ (ys ++ [.build]))) (hk : spawnWith kind (xs ++ (ys ++ [.build])) w = .ok e w1) :
    ∃ a1, w1.Shows a1 ∧ a.answers (.spawn kind (xs ++ [.build]) :: (ys.filterMap (asAdd e)).map .call) = (.ok (.id e) :: ys.map (fun _ => .ok .unit), a1) := by
  rw [spawnWith_eq] at hk
  obtain ⟨e', w2, q1, q2⟩ := bind_ok hk
  obtain ⟨b, w3, q3, q4⟩ := bind_ok q2
  obtain ⟨b', w4, q5, q6⟩ := bind_ok q4
  obtain ⟨u, w5, q7, q8⟩ := bind_ok q6
  simp only [pure, EStateM.pure, EStateM.Result.ok.injEq] at q8
  obtain ⟨rfl, rfl⟩ := q8
  obtain ⟨s', rfl, i1, n1, l1, f1, k1, u1, m1⟩ := (spawnId_spec h hn).ok q1
  obtain ⟨r, rfl, p1, p2, p3, p4⟩ := (mkBuilder_spec i1 kind e').ok q3
  have hs : w.entities.spawn = (.ok e', s') := by
    unfold spawnId at q1
    cases hs : w.entities.spawn with
    | mk r s =>
      rw [hs] at q1
      cases r with
      | error f => simp only at q1; cases q1
      | ok y =>
        simp only [EStateM.Result.ok.injEq] at q1
        obtain ⟨rfl, x2⟩ := q1
        have : s = s' := congrArg World.entities x2
        rw [this]
  have hs1 : Shows { w with entities := s' } { a with ents := s' } := by
    refine ⟨rfl, ha.types, ?_, ha.cell, ha.used, ha.lock⟩
    intro x m
    rw [infoIs_iff i1]
    show a.info x = some m ↔ _
    rw [ha.info, infoIs_iff h]
    exact Iff.rfl
  have i2 : Inv { w with entities := s', reuse := r } := i1.withReuse p4
  have hle : s'.Live e' := (l1 e').2 (Or.inr rfl)
  have hnr : ¬ World.Row { w with entities := s', reuse := r } e' := (i2.inst_none hle).1 m1
  have hb0 : BOk { w with entities := s', reuse := r } b [] :=
    ⟨p1, (by intro p hp; cases hp), by rw [p2]; exact hle, by rw [p2]; exact hnr⟩
  have hd : Draws { w with entities := s', reuse := r } { a with ents := s' } b ⟨e', AWorld.metaOf kind, []⟩ :=
    ⟨i2, n1.1, hs1.reuse r w.log, ⟨p1.blk, p2, Or.inl ⟨hb0, by rw [p3, metaOf_eq]⟩⟩, ((hs1.reuse r w.log).infoNone i2).2 hnr⟩
  obtain ⟨d', a', b2, w6, t1, t2, t3, t4, t5⟩ := hd.acts xs (ys ++ [.build]) hx (hc e' _ b _ q1 q3) q5
  obtain ⟨_, a1, v1, v2⟩ := t2.adds ys hy t4 t5
  have hbs := bsim_acts _ t2.inv t2.nowrap t2.shows t2.drafts t4
  obtain ⟨_, _, _, z1, z2, z3⟩ := hbs.ok t5
  obtain ⟨r3, d1, d2⟩ := Builder.drop_spec z3.blk z1
  rw [d1] at q7
  simp only [EStateM.Result.ok.injEq, true_and] at q7
  subst q7
  refine ⟨a1, v1.reuse _ _, ?_⟩
  have hall : AWorld.acts ⟨e', AWorld.metaOf kind, []⟩ (xs ++ [.build]) { a with ents := s' } = (.ok d', a'.finish d') := by
    rw [AWorld.acts_append, t1]; rfl
  rw [t3] at v2
  simp only [AWorld.answers, AWorld.ask, AWorld.spawn, AWorld.spawnId, ha.ents, hs, hall, v2]
  rfl

end WorldSpec
end Ellecs
