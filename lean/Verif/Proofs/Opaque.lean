import Verif.Spec.Opaque
import Verif.Proofs.Fate
import Verif.Proofs.Interleave
/-!
# Two programs that differ only in their data: the maps do the same
-/
namespace Ellecs.WorldSpec
open World

variable {R : Recoding}

theorem Pairs.take' {α β : Type} {S : α → β → Prop} {as : List α} {bs : List β} (h : Pairs S as bs) (n : Nat) : Pairs S (as.take n) (bs.take n) := by
  induction h generalizing n with
  | nil => simp only [List.take_nil]; exact .nil
  | cons h _ ih =>
    cases n with
    | zero => exact .nil
    | succ n => exact .cons h (ih n)

/-- The two results and the two worlds correspond. -/
def Both (R : Recoding) {α β : Type} (S : α → β → Prop) (x : Except Fault α × AWorld) (y : Except Fault β × AWorld) : Prop :=
  R.Maps x.2 y.2 ∧ match x.1, y.1 with
    | .ok r, .ok s => S r s
    | .error f, .error g => f = g
    | _, _ => False

theorem Both.mk_ok {α β : Type} {S : α → β → Prop} {r : α} {s : β} {a b : AWorld} (h : R.Maps a b) (hs : S r s) : Both R S (.ok r, a) (.ok s, b) := ⟨h, hs⟩

theorem Both.mk_error {α β : Type} {S : α → β → Prop} {f : Fault} {a b : AWorld} (h : R.Maps a b) : Both R S (.error f, a) (.error f, b) := ⟨h, rfl⟩

theorem _root_.Ellecs.Recoding.Maps.addLocks {a b : AWorld} (h : R.Maps a b) (ids : List EcsId) : R.Maps (a.addLocks ids) (b.addLocks ids) :=
  ⟨h.ents, h.types, h.info, h.cell, h.used, by simp only [AWorld.addLocks, h.lock]⟩

theorem _root_.Ellecs.Recoding.Maps.use {a b : AWorld} (h : R.Maps a b) (ids : List EcsId) : R.Maps (a.use ids) (b.use ids) :=
  ⟨h.ents, h.types, h.info, h.cell, by simp only [AWorld.use, h.used], h.lock⟩

theorem _root_.Ellecs.Recoding.Maps.setCell {a b : AWorld} (h : R.Maps a b) (e c : EcsId) {v v' : Option Bytes} (hv : Option.Rel R.Vals v v') :
    R.Maps { a with cell := fun x y => if x = e ∧ y = c then v else a.cell x y } { b with cell := fun x y => if x = e ∧ y = c then v' else b.cell x y } := by
  refine ⟨h.ents, h.types, h.info, ?_, h.used, h.lock⟩
  intro x y
  show Option.Rel _ (if _ then _ else _) (if _ then _ else _)
  split
  · exact hv
  · exact h.cell x y

theorem _root_.Ellecs.Recoding.Maps.poison {a b : AWorld} (h : R.Maps a b) (held : List (EcsId × Bool)) : R.Maps (a.poison held) (b.poison held) :=
  ⟨h.ents, h.types, h.info, h.cell, h.used, by simp only [AWorld.poison, h.lock]⟩

theorem _root_.Ellecs.Recoding.Maps.alive {a b : AWorld} (h : R.Maps a b) (e : EcsId) : a.isAlive e = b.isAlive e := by unfold AWorld.isAlive; rw [h.ents]

theorem both_spawnId {a b : AWorld} (h : R.Maps a b) : Both R Eq a.spawnId b.spawnId := by
  unfold AWorld.spawnId
  rw [h.ents]
  rcases b.ents.spawn with ⟨r, s⟩
  refine ⟨⟨rfl, h.types, h.info, h.cell, h.used, h.lock⟩, ?_⟩
  cases r <;> rfl

theorem both_register {a b : AWorld} (h : R.Maps a b) {t u : Ty} (ht : R.type t u) : Both R Eq (a.register t) (b.register u) := by
  unfold AWorld.register
  rw [h.types ht]
  cases b.types u with
  | some c => exact .mk_ok h rfl
  | none =>
    have hs := both_spawnId h
    revert hs
    rcases a.spawnId with ⟨r, a'⟩
    rcases b.spawnId with ⟨s, b'⟩
    rintro ⟨h1, h2⟩
    cases r <;> cases s <;> simp only at h2
    · subst h2; exact .mk_error h1
    · subst h2
      refine .mk_ok ⟨h1.ents, ?_, ?_, h1.cell, h1.used, h1.lock⟩ rfl
      · intro t' u' ht'
        have := R.same ht' ht
        show (if t' = t then _ else _) = (if u' = u then _ else _)
        by_cases hx : t' = t
        · rw [if_pos hx, if_pos (this.1 hx)]
        · rw [if_neg hx, if_neg (fun hy => hx (this.2 hy))]; exact h1.types ht'
      · intro x
        show Option.Rel _ (if _ then _ else _) (if _ then _ else _)
        split
        · exact .some ⟨R.size ht, .some (R.generic ht)⟩
        · exact h1.info x

theorem both_addDyn {a b : AWorld} (h : R.Maps a b) (e c : EcsId) {v v' : Bytes} (hv : R.Vals v v') : Both R Eq (a.addDyn e c v) (b.addDyn e c v') := by
  unfold AWorld.addDyn
  rw [h.alive, h.alive]
  rcases b.isAlive e with f | _ | _
  · exact .mk_error h
  · exact .mk_ok h rfl
  rcases b.isAlive c with f | _ | _
  · exact .mk_error h
  · exact .mk_ok h rfl
  have h1 := h.info e
  have h2 := h.cell e c
  have h3 := h.info c
  revert h1 h2 h3
  cases a.info e <;> cases b.info e <;> intro h1 <;> cases h1
  · intro _ _; exact .mk_error h
  · cases a.cell e c <;> cases b.cell e c <;> intro h2 <;> cases h2
    · cases a.info c <;> cases b.info c <;> intro h3 <;> cases h3
      · exact .mk_error (h.addLocks _)
      · rename_i hm
        refine .mk_ok (Recoding.Maps.addLocks (Recoding.Maps.use (h.setCell e c (.some ?_)) _) _) rfl
        rw [hm.1]
        exact Pairs.take' hv _
    · intro _; exact .mk_error h

theorem both_removeDyn {a b : AWorld} (h : R.Maps a b) (e c : EcsId) : Both R Eq (a.removeDyn e c) (b.removeDyn e c) := by
  unfold AWorld.removeDyn
  rw [h.alive, h.alive]
  rcases b.isAlive e with f | _ | _
  · exact .mk_error h
  · exact .mk_ok h rfl
  rcases b.isAlive c with f | _ | _
  · exact .mk_error h
  · exact .mk_ok h rfl
  have h1 := h.info e
  have h2 := h.cell e c
  revert h1 h2
  cases a.info e <;> cases b.info e <;> intro h1 <;> cases h1
  · intro _; exact .mk_error h
  · cases a.cell e c <;> cases b.cell e c <;> intro h2 <;> cases h2
    · exact .mk_error h
    · exact .mk_ok (h.setCell e c .none) rfl

theorem both_addZst {a b : AWorld} (h : R.Maps a b) (e c : EcsId) : Both R Eq (a.addZst e c) (b.addZst e c) := by
  unfold AWorld.addZst
  rw [h.alive, h.alive]
  rcases b.isAlive e with f | _ | _
  · exact .mk_error h
  · exact .mk_error h
  rcases b.isAlive c with f | _ | _
  · exact .mk_error h
  · exact .mk_error h
  have h1 := h.info c
  revert h1
  cases a.info c <;> cases b.info c <;> intro h1 <;> cases h1
  · exact .mk_error h
  · rename_i hm
    simp only [hm.1]
    split
    · exact .mk_error h
    · exact both_addDyn h e c .nil

theorem Both.split {α β : Type} {S : α → β → Prop} {x : Except Fault α × AWorld} {y : Except Fault β × AWorld} (h : Both R S x y) :
    (∃ f a b, x = (.error f, a) ∧ y = (.error f, b) ∧ R.Maps a b) ∨ ∃ r s a b, x = (.ok r, a) ∧ y = (.ok s, b) ∧ S r s ∧ R.Maps a b := by
  revert h
  rcases x with ⟨r, a⟩
  rcases y with ⟨s, b⟩
  rintro ⟨h1, h2⟩
  cases r <;> cases s <;> simp only at h2
  · subst h2; exact Or.inl ⟨_, _, _, rfl, rfl, h1⟩
  · exact Or.inr ⟨_, _, _, _, rfl, rfl, h2, h1⟩

theorem both_addComponent {a b : AWorld} (h : R.Maps a b) (e : EcsId) {t u : Ty} {v v' : Bytes} (ht : R.type t u) (hv : R.Vals v v') :
    Both R Eq (a.addComponent e t v) (b.addComponent e u v') := by
  unfold AWorld.addComponent
  rw [h.alive]
  rcases b.isAlive e with f | _ | _
  · exact .mk_error h
  · exact .mk_error h
  · rcases (both_register h ht).split with ⟨f, a', b', e1, e2, h'⟩ | ⟨r, s, a', b', e1, e2, hrs, h'⟩ <;> simp only [e1, e2]
    · exact .mk_error h'
    · subst hrs; exact both_addDyn h' e r hv

theorem both_removeComponent {a b : AWorld} (h : R.Maps a b) (e : EcsId) {t u : Ty} (ht : R.type t u) :
    Both R Eq (a.removeComponent e t) (b.removeComponent e u) := by
  unfold AWorld.removeComponent
  rw [h.alive]
  rcases b.isAlive e with f | _ | _
  · exact .mk_error h
  · exact .mk_error h
  · rcases (both_register h ht).split with ⟨f, a', b', e1, e2, h'⟩ | ⟨r, s, a', b', e1, e2, hrs, h'⟩ <;> simp only [e1, e2]
    · exact .mk_error h'
    · subst hrs; exact both_removeDyn h' e r

theorem both_despawn {a b : AWorld} (h : R.Maps a b) (e : EcsId) : Both R Eq (a.despawn e) (b.despawn e) := by
  unfold AWorld.despawn
  rw [h.alive, h.used, h.ents]
  rcases b.isAlive e with f | _ | _
  · exact .mk_error h
  · exact .mk_ok h rfl
  simp only
  split
  · exact .mk_error h
  have h1 := h.info e
  revert h1
  cases a.info e <;> cases b.info e <;> intro h1 <;> cases h1
  · exact .mk_error h
  · cases b.ents.despawn e with
    | error f => exact .mk_error h
    | ok r =>
      refine .mk_ok ⟨rfl, h.types, ?_, ?_, rfl, h.lock⟩ rfl
      · intro x
        show Option.Rel _ (if _ then _ else _) (if _ then _ else _)
        split
        · exact .none
        · exact h.info x
      · intro x y
        show Option.Rel _ (if _ then _ else _) (if _ then _ else _)
        split
        · exact .none
        · exact h.cell x y

theorem both_write {a b : AWorld} (h : R.Maps a b) (e c : EcsId) {v v' : Bytes} (hv : R.Vals v v') : Both R Eq (a.write e c v) (b.write e c v') := by
  unfold AWorld.write
  rw [h.alive, h.alive]
  rcases b.isAlive e with f | _ | _
  · exact .mk_error h
  · exact .mk_ok h rfl
  rcases b.isAlive c with f | _ | _
  · exact .mk_error h
  · exact .mk_ok h rfl
  have h1 := h.info e
  have h2 := h.cell e c
  revert h1 h2
  cases a.info e <;> cases b.info e <;> intro h1 <;> cases h1
  · intro _; exact .mk_ok h rfl
  · cases a.cell e c <;> cases b.cell e c <;> intro h2 <;> cases h2
    · exact .mk_error h
    · exact .mk_ok (h.setCell e c (.some hv)) rfl

/-! ### builders -/

/-- Two builders. -/
structure Drafts (R : Recoding) (b b' : AWorld.Draft) : Prop where
  entity : b.entity = b'.entity
  cmeta : R.Metas b.cmeta b'.cmeta
  vals : Pairs (fun x y => x.1 = y.1 ∧ R.Vals x.2 y.2) b.vals b'.vals

theorem pairs_fst {vals vals' : List (EcsId × Bytes)} (h : Pairs (fun x y => x.1 = y.1 ∧ R.Vals x.2 y.2) vals vals') : vals.map Prod.fst = vals'.map Prod.fst := by
  induction h with
  | nil => rfl
  | cons h _ ih => rw [List.map_cons, List.map_cons, ih, h.1]

theorem pairs_lookup {vals vals' : List (EcsId × Bytes)} (h : Pairs (fun x y => x.1 = y.1 ∧ R.Vals x.2 y.2) vals vals') (c : EcsId) :
    Option.Rel R.Vals (vals.lookup c) (vals'.lookup c) := by
  induction h with
  | nil => exact .none
  | @cons x y _ _ h _ ih =>
    obtain ⟨x1, x2⟩ := x
    obtain ⟨y1, y2⟩ := y
    obtain ⟨h1, h2⟩ := h
    simp only at h1 h2
    subst h1
    simp only [List.lookup_cons]
    cases c == x1
    · exact ih
    · exact .some h2

theorem both_give {a b : AWorld} (h : R.Maps a b) {d d' : AWorld.Draft} (hd : Drafts R d d') (c : EcsId) {v v' : Bytes} (hv : R.Vals v v') :
    Both R (Drafts R) (a.give c v d) (b.give c v' d') := by
  unfold AWorld.give
  rw [h.alive]
  rcases b.isAlive c with f | _
  · exact .mk_error h
  have h1 := h.info c
  revert h1
  cases a.info c <;> cases b.info c <;> intro h1 <;> cases h1
  · exact .mk_error h
  · rename_i hm
    refine .mk_ok h ⟨hd.entity, hd.cmeta, Pairs.append' hd.vals (.cons ⟨rfl, ?_⟩ .nil)⟩
    show R.Vals (v.take _) (v'.take _)
    rw [hm.1]
    exact Pairs.take' hv _

theorem maps_finish {a b : AWorld} (h : R.Maps a b) {d d' : AWorld.Draft} (hd : Drafts R d d') : R.Maps (a.finish d) (b.finish d') := by
  unfold AWorld.finish
  rw [pairs_fst hd.vals, hd.entity]
  apply Recoding.Maps.addLocks
  apply Recoding.Maps.use
  refine ⟨h.ents, h.types, ?_, ?_, h.used, h.lock⟩
  · intro x
    show Option.Rel _ (if _ then _ else _) (if _ then _ else _)
    split
    · exact .some hd.cmeta
    · exact h.info x
  · intro x y
    show Option.Rel _ (if _ then _ else _) (if _ then _ else _)
    split
    · exact pairs_lookup hd.vals y
    · exact h.cell x y

theorem both_act {a b : AWorld} (h : R.Maps a b) {d d' : AWorld.Draft} (hd : Drafts R d d') {x x' : BAct} (hx : R.Acts x x') :
    Both R (Drafts R) (a.act d x) (b.act d' x') := by
  cases hx with
  | «with» ht hv =>
    unfold AWorld.act
    rcases (both_register h ht).split with ⟨f, a', b', e1, e2, h'⟩ | ⟨r, s, a', b', e1, e2, hrs, h'⟩ <;> simp only [e1, e2]
    · exact .mk_error h'
    · subst hrs; exact both_give h' hd r hv
  | withDynamicWithData c hv => exact both_give h hd c hv
  | withDynamic c =>
    unfold AWorld.act
    simp only
    rw [h.alive]
    rcases b.isAlive c with f | _
    · exact .mk_error h
    have h1 := h.info c
    revert h1
    cases a.info c <;> cases b.info c <;> intro h1 <;> cases h1
    · exact .mk_error h
    · rename_i hm
      simp only [hm.1]
      split
      · exact .mk_error h
      · exact .mk_ok h ⟨hd.entity, hd.cmeta, Pairs.append' hd.vals (.cons ⟨rfl, .nil⟩ .nil)⟩
  | build => exact .mk_ok (maps_finish h hd) hd

theorem both_acts {xs xs' : List BAct} (hx : Pairs R.Acts xs xs') : ∀ {a b : AWorld} (_ : R.Maps a b) {d d' : AWorld.Draft} (_ : Drafts R d d'),
    Both R (Drafts R) (AWorld.acts d xs a) (AWorld.acts d' xs' b) := by
  induction hx with
  | nil => intro a b h d d' hd; exact .mk_ok h hd
  | cons hx _ ih =>
    intro a b h d d' hd
    unfold AWorld.acts
    rcases (both_act h hd hx).split with ⟨f, a', b', e1, e2, h'⟩ | ⟨r, s, a', b', e1, e2, hrs, h'⟩ <;> simp only [e1, e2]
    · exact .mk_error h'
    · exact ih h' hrs

theorem both_spawn {a b : AWorld} (h : R.Maps a b) {k k' : SpawnKind} {xs xs' : List BAct} (hk : R.Metas (AWorld.metaOf k) (AWorld.metaOf k'))
    (hx : Pairs R.Acts xs xs') : Both R Eq (a.spawn k xs) (b.spawn k' xs') := by
  unfold AWorld.spawn
  rcases (both_spawnId h).split with ⟨f, a', b', e1, e2, h'⟩ | ⟨r, s, a', b', e1, e2, hrs, h'⟩ <;> simp only [e1, e2]
  · exact .mk_error h'
  · subst hrs
    have hd : Drafts R ⟨r, AWorld.metaOf k, []⟩ ⟨r, AWorld.metaOf k', []⟩ := ⟨rfl, hk, .nil⟩
    rcases (both_acts hx h' hd).split with ⟨f, a', b', e1, e2, h'⟩ | ⟨_, _, a', b', e1, e2, hrs, h'⟩ <;> simp only [e1, e2]
    · exact .mk_error h'
    · exact .mk_ok h' rfl

/-! ### queries -/

theorem maps_take {a b : AWorld} (h : R.Maps a b) (st : Bool) (fs : List Fetch) : ∀ held, a.take st held fs = b.take st held fs := by
  induction fs with
  | nil => intro held; rfl
  | cons f fs ih =>
    intro held
    simp only [AWorld.take, h.lock, ih]

theorem both_lockAll {a b : AWorld} (h : R.Maps a b) (st : Bool) (fs : List Fetch) (p : Bool) : Both R Eq (a.lockAll st fs p) (b.lockAll st fs p) := by
  unfold AWorld.lockAll
  rw [maps_take h]
  rcases b.take st [] fs with ⟨_ | f, held⟩
  · cases p
    · exact .mk_ok h rfl
    · exact .mk_ok (h.poison held) rfl
  · exact .mk_error (h.poison held)

theorem maps_fetch {a b : AWorld} (h : R.Maps a b) {p p' : Param} (hp : R.Params p p') : a.fetch p = b.fetch p' := by
  cases hp with
  | ids => rfl
  | «mut» ht => simp only [AWorld.fetch, h.types ht]
  | ref ht => simp only [AWorld.fetch, h.types ht]

theorem maps_fetches {a b : AWorld} (h : R.Maps a b) {ps ps' : List Param} (hp : Pairs R.Params ps ps') : ps.mapM a.fetch = ps'.mapM b.fetch := by
  induction hp with
  | nil => rfl
  | cons hp _ ih => rw [List.mapM_cons, List.mapM_cons, ih, maps_fetch h hp]

theorem both_query {a b : AWorld} (h : R.Maps a b) {ps ps' : List Param} (hp : Pairs R.Params ps ps') (p : Bool) : Both R Eq (a.query ps p) (b.query ps' p) := by
  unfold AWorld.query
  rw [maps_fetches h hp]
  cases ps'.mapM b.fetch with
  | none => exact .mk_ok h rfl
  | some fs => exact both_lockAll h true fs p

/-! ### all calls and questions -/

theorem both_void {α β : Type} {S : α → β → Prop} {x : Except Fault α × AWorld} {y : Except Fault β × AWorld} (h : Both R S x y) : Both R Eq (AWorld.void x) (AWorld.void y) := by
  revert h
  rcases x with ⟨r, a⟩
  rcases y with ⟨s, b⟩
  rintro ⟨h1, h2⟩
  cases r <;> cases s <;> simp only at h2
  · subst h2; exact .mk_error h1
  · exact .mk_ok h1 rfl

theorem both_step {a b : AWorld} (h : R.Maps a b) {c c' : Call} (hc : R.Calls c c') : Both R Eq (AWorld.step c a) (AWorld.step c' b) := by
  cases hc with
  | spawn hk hx => exact both_void (both_spawn h hk hx)
  | addComponent e ht hv => exact both_addComponent h e ht hv
  | removeComponent e ht => exact both_removeComponent h e ht
  | addDynamic e c => exact both_addZst h e c
  | addDynamicWithData e c hv => exact both_addDyn h e c hv
  | removeDynamic e c => exact both_removeDyn h e c
  | despawn e => exact both_void (both_despawn h e)
  | register ht => exact both_void (both_register h ht)
  | write e c hv => exact both_write h e c hv
  | query p hp => exact both_query h hp p
  | queryDynamic fs p => exact both_lockAll h false fs p

/-- The answers and the worlds correspond. -/
def BothAnswers (R : Recoding) (x y : Except Fault Answer × AWorld) : Prop := R.Answers x.1 y.1 ∧ R.Maps x.2 y.2

theorem both_map {α β : Type} {S : α → β → Prop} {x : Except Fault α × AWorld} {y : Except Fault β × AWorld} (h : Both R S x y) {g : α → Answer} {g' : β → Answer}
    (hg : ∀ r s, S r s → R.Answers (.ok (g r)) (.ok (g' s))) : R.Answers (x.1.map g) (y.1.map g') ∧ R.Maps x.2 y.2 := by
  revert h
  rcases x with ⟨r, a⟩
  rcases y with ⟨s, b⟩
  rintro ⟨h1, h2⟩
  refine ⟨?_, h1⟩
  cases r <;> cases s <;> simp only at h2
  · subst h2; exact .panic _
  · exact hg _ _ h2

theorem maps_has {a b : AWorld} (h : R.Maps a b) {t u : Ty} (ht : R.type t u) (e : EcsId) : a.hasComponent t e = b.hasComponent u e := by
  unfold AWorld.hasComponent
  rw [h.types ht, h.alive]
  cases b.types u with
  | none => rfl
  | some c =>
    simp only
    cases b.isAlive e with
    | error f => rfl
    | ok _ =>
      simp only
      have := h.cell e c
      revert this
      cases a.cell e c <;> cases b.cell e c <;> intro h1 <;> cases h1 <;> rfl

theorem maps_look {a b : AWorld} (h : R.Maps a b) (e c : EcsId) : R.Answers ((a.look e c).map .value) ((b.look e c).map .value) := by
  unfold AWorld.look
  rw [h.alive, h.alive]
  rcases b.isAlive e with f | _ | _
  · exact .panic _
  · exact .value .none
  rcases b.isAlive c with f | _ | _
  · exact .panic _
  · exact .value .none
  have h1 := h.info e
  have h2 := h.cell e c
  revert h1 h2
  cases a.info e <;> cases b.info e <;> intro h1 <;> cases h1
  · intro _; exact .value .none
  · cases a.cell e c <;> cases b.cell e c <;> intro h2 <;> cases h2
    · exact .panic _
    · rename_i hv; exact .value (.some hv)

theorem both_ask {a b : AWorld} (h : R.Maps a b) {q q' : Ask} (hq : R.Asks q q') : R.Answers (a.ask q).1 (b.ask q').1 ∧ R.Maps (a.ask q).2 (b.ask q').2 := by
  cases hq with
  | call hc => exact both_map (both_step h hc) (fun _ _ _ => .unit)
  | spawn hk hx => exact both_map (both_spawn h hk hx) (fun r s hrs => by subst hrs; exact .id _)
  | despawn e => exact both_map (both_despawn h e) (fun r s hrs => by subst hrs; exact .bool _)
  | register ht => exact both_map (both_register h ht) (fun r s hrs => by subst hrs; exact .id _)
  | isAlive e =>
    refine ⟨?_, h⟩
    show R.Answers ((a.isAlive e).map _) ((b.isAlive e).map _)
    rw [h.alive]
    cases b.isAlive e with
    | error f => exact .panic _
    | ok x => exact .bool _
  | has e ht =>
    refine ⟨?_, h⟩
    show R.Answers ((a.hasComponent _ e).map _) ((b.hasComponent _ e).map _)
    rw [maps_has h ht]
    cases b.hasComponent _ e with
    | error f => exact .panic _
    | ok x => exact .bool _
  | look e c n => exact ⟨maps_look h e c, h⟩

theorem both_answers {qs qs' : List Ask} (hq : Pairs R.Asks qs qs') : ∀ {a b : AWorld}, R.Maps a b →
    Pairs R.Answers (a.answers qs).1 (b.answers qs').1 ∧ R.Maps (a.answers qs).2 (b.answers qs').2 := by
  induction hq with
  | nil => intro a b h; exact ⟨.nil, h⟩
  | @cons q q' qs qs' hq _ ih =>
    intro a b h
    obtain ⟨h1, h2⟩ := both_ask h hq
    obtain ⟨h3, h4⟩ := ih h2
    exact ⟨.cons h1 h3, h4⟩

/-! ### drop calls -/

theorem pairs_owed {m m' : ComponentMeta} (h : R.Metas m m') {v v' : Bytes} (hv : R.Vals v v') : Pairs R.Evs (owed m v) (owed m' v') := by
  have := h.2
  unfold owed
  revert this
  cases m.dropFn <;> cases m'.dropFn <;> intro h1 <;> cases h1
  · exact .nil
  · rename_i hf; exact .cons ⟨hf, hv⟩ .nil

theorem maps_due {a b : AWorld} (h : R.Maps a b) (e c : EcsId) : Pairs R.Evs (a.due e c) (b.due e c) := by
  unfold AWorld.due
  have h1 := h.cell e c
  have h2 := h.info c
  revert h1 h2
  cases a.cell e c <;> cases b.cell e c <;> intro h1 <;> cases h1
  · intro _; exact .nil
  · cases a.info c <;> cases b.info c <;> intro h2 <;> cases h2
    · exact .nil
    · rename_i hv _ _ hm; exact pairs_owed hm hv

theorem maps_cell_none {a b : AWorld} (h : R.Maps a b) (e c : EcsId) : a.cell e c ≠ none ↔ b.cell e c ≠ none := by
  have h1 := h.cell e c
  revert h1
  cases a.cell e c <;> cases b.cell e c <;> intro h1 <;> cases h1 <;> simp

theorem Both.fst {α : Type} {x y : Except Fault α × AWorld} (h : Both R Eq x y) : x.1 = y.1 := by
  revert h
  rcases x with ⟨r, a⟩
  rcases y with ⟨s, b⟩
  rintro ⟨h1, h2⟩
  cases r <;> cases s <;> simp only at h2
  · rw [h2]
  · rw [h2]

theorem maps_drops {a b : AWorld} (h : R.Maps a b) {c c' : Call} (hc : R.Calls c c') {x y : List DropEv} (hx : a.Drops c x) (hy : b.Drops c' y) : Pairs R.Evs x y := by
  cases hc with
  | addComponent e ht hv =>
    have h1 := h.alive e
    have h2 := (both_register h ht).fst
    simp only [AWorld.Drops] at hx hy
    rw [h1, h2] at hx
    rcases hx with ⟨p1, rfl⟩ | ⟨p1, rfl⟩ <;> rcases hy with ⟨p2, rfl⟩ | ⟨p2, rfl⟩
    · exact .nil
    · exact absurd p1 p2
    · exact absurd p2 p1
    · exact .cons ⟨R.generic ht, hv⟩ .nil
  | removeComponent e ht =>
    simp only [AWorld.Drops] at hx hy
    subst hx hy
    rw [h.types ht]
    exact Pairs.flatMap' (fun c _ => maps_due h e c)
  | removeDynamic e c =>
    simp only [AWorld.Drops] at hx hy
    subst hx hy
    exact maps_due h e c
  | despawn e =>
    simp only [AWorld.Drops] at hx hy
    rw [(both_despawn h e).fst] at hx
    rcases hx with ⟨p1, cs, q1, rfl⟩ | ⟨p1, rfl⟩ <;> rcases hy with ⟨p2, ds, q2, rfl⟩ | ⟨p2, rfl⟩
    · have : cs = ds := ascending_unique q1 ⟨q2.order, fun c => (q2.all c).trans (maps_cell_none h e c).symm⟩
      subst this
      exact Pairs.flatMap' (fun c _ => maps_due h e c)
    · exact absurd p1 p2
    · exact absurd p2 p1
    · exact .nil
  | spawn hk hx' => cases hx; cases hy; exact .nil
  | addDynamic e c => cases hx; cases hy; exact .nil
  | addDynamicWithData e c hv => cases hx; cases hy; exact .nil
  | register ht => cases hx; cases hy; exact .nil
  | write e c hv => cases hx; cases hy; exact .nil
  | query p hp => cases hx; cases hy; exact .nil
  | queryDynamic fs p => cases hx; cases hy; exact .nil

theorem maps_askDrops {a b : AWorld} (h : R.Maps a b) {q q' : Ask} (hq : R.Asks q q') {x y : List DropEv} (hx : a.AskDrops q x) (hy : b.AskDrops q' y) : Pairs R.Evs x y := by
  cases hq with
  | call hc => exact maps_drops h hc hx hy
  | spawn hk hxs => exact maps_drops h (.spawn hk hxs) hx hy
  | despawn e => exact maps_drops h (.despawn e) hx hy
  | register ht => exact maps_drops h (.register ht) hx hy
  | isAlive e => cases hx; cases hy; exact .nil
  | has e ht => cases hx; cases hy; exact .nil
  | look e c n => cases hx; cases hy; exact .nil

theorem maps_fates {qs qs' : List Ask} (hq : Pairs R.Asks qs qs') : ∀ {a b : AWorld} (_ : R.Maps a b) {x y : List DropEv}, a.Fates qs x → b.Fates qs' y → Pairs R.Evs x y := by
  induction hq with
  | nil => intro a b h x y hx hy; cases hx; cases hy; exact .nil
  | cons hq _ ih =>
    rintro a b h x y ⟨x1, x2, rfl, p1, p2⟩ ⟨y1, y2, rfl, q1, q2⟩
    exact Pairs.append' (maps_askDrops h hq p1 q1) (ih (both_ask h hq).2 p2 q2)

theorem pairs_filter {x y : List DropEv} (h : Pairs R.Evs x y) : Pairs R.Evs (x.filter (fun ev => !ev.bytes.isEmpty)) (y.filter (fun ev => !ev.bytes.isEmpty)) := by
  induction h with
  | nil => exact .nil
  | @cons u v us vs h _ ih =>
    have : u.bytes.isEmpty = v.bytes.isEmpty := by
      have := Pairs.length' h.2
      cases hu : u.bytes <;> cases hv : v.bytes <;> rw [hu, hv] at this <;> first | rfl | simp at this
    simp only [List.filter_cons, this]
    split
    · exact .cons h ih
    · exact ih

theorem maps_burial {a b : AWorld} (h : R.Maps a b) {L : List Line} : ∀ {x y : List DropEv}, a.Burial L x → b.Burial L y → Pairs R.Evs x y := by
  induction L with
  | nil => intro x y hx hy; cases hx; cases hy; exact .nil
  | cons l L ih =>
    obtain ⟨s, es⟩ := l
    rintro x y ⟨cs, x', p1, p2, rfl⟩ ⟨ds, y', q1, q2, rfl⟩
    have := ascending_unique p1 q1
    subst this
    exact Pairs.append' (Pairs.flatMap' (fun c _ => Pairs.flatMap' (fun e _ => pairs_filter (maps_due h e c)))) (ih p2 q2)

end Ellecs.WorldSpec
