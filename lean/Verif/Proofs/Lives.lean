import Verif.Spec.Lives
import Verif.Proofs.Told
/-!
# Components during the lives of an entity
-/
namespace Ellecs
namespace World
open WorldSpec

namespace AW

theorem register_info {t : Ty} {a : AWorld} {e : EcsId} (h : (a.register t).2.types t ≠ some e) : (a.register t).2.info e = a.info e := by
  rcases register_cases t a with ⟨c, h1, h2⟩ | ⟨h1, f, s, h2, h3⟩ | ⟨h1, c, s, h2, h3⟩
  · rw [h2]
  · rw [h3]
  · rw [h3] at h ⊢
    simp only [if_true] at h
    exact if_neg (fun hh => h (by rw [hh]))

theorem act_info {b : AWorld.Draft} {x : BAct} {a : AWorld} {e : EcsId} (hx : x ≠ .build) (h : ∀ t, (a.act b x).2.types t ≠ some e) :
    (a.act b x).2.info e = a.info e := by
  unfold AWorld.act at h ⊢
  cases x with
  | build => exact absurd rfl hx
  | withDynamicWithData c v =>
    simp only
    unfold AWorld.give
    repeat' split
    all_goals rfl
  | withDynamic c =>
    simp only
    repeat' split
    all_goals rfl
  | «with» t v =>
    simp only at h ⊢
    have hr := @register_info t a e
    cases hreg : a.register t with
    | mk r a1 =>
      rw [hreg] at hr
      simp only [hreg] at h ⊢
      cases r with
      | error f => exact hr (h t)
      | ok c =>
        simp only at h ⊢
        unfold AWorld.give at h ⊢
        cases h1 : a1.isAlive c with
        | error f => simp only [h1] at h ⊢; exact hr (h t)
        | ok _ =>
          simp only [h1] at h ⊢
          cases h2 : a1.info c with
          | none => simp only [h2] at h ⊢; exact hr (h t)
          | some m => simp only [h2] at h ⊢; exact hr (h t)

theorem acts_info (xs : List BAct) {e : EcsId} : ∀ {a : AWorld} {b : AWorld.Draft}, .build ∉ xs → (∀ t, (AWorld.acts b xs a).2.types t ≠ some e) →
    (AWorld.acts b xs a).2.info e = a.info e := by
  induction xs with
  | nil => intro a b _ _; rfl
  | cons x xs ih =>
    intro a b hn h
    have hkeep : ∀ t, (a.act b x).2.types t ≠ some e := fun t hh => by
      unfold AWorld.acts at h
      cases hx : a.act b x with
      | mk r a1 =>
        rw [hx] at hh
        simp only [hx] at h
        cases r with
        | error f => exact h t hh
        | ok b1 => exact h t (acts_keeps xs b1 a1 t e hh)
    have h1 := act_info (fun hh => hn (by rw [hh]; exact List.mem_cons_self)) hkeep
    unfold AWorld.acts at h ⊢
    cases hx : a.act b x with
    | mk r a1 =>
      rw [hx] at h1
      simp only [hx] at h ⊢
      cases r with
      | error f => exact h1
      | ok b1 => exact (ih (fun hh => hn (List.mem_cons_of_mem _ hh)) h).trans h1

theorem act_offers {ty : Ty → Option EcsId} {b b' : AWorld.Draft} {x : BAct} {a : AWorld} {c : EcsId} {m : ComponentMeta} (hx : x ≠ .build)
    (hc : a.isAlive c = .ok true) (hm : a.info c = some m) (hty : ∀ t id, (a.act b x).2.types t = some id → ty t = some id) (hb : (a.act b x).1 = .ok b') :
    b'.vals.lookup c = (b.vals.lookup c).or (offers ty c m.layout.size x) := by
  unfold AWorld.act at hty hb
  cases x with
  | build => exact absurd rfl hx
  | withDynamicWithData y v =>
    simp only at hb
    unfold AWorld.give at hb
    split at hb
    · cases hb
    · split at hb
      · cases hb
      · next m' hm' =>
        cases hb
        rw [lookup_snoc]
        show _ = Option.or _ (if y = c then _ else _)
        by_cases hy : y = c
        · subst hy
          rw [hm] at hm'; cases hm'
          simp
        · rw [if_neg hy, if_neg (fun hh => hy hh.symm)]
  | withDynamic y =>
    simp only at hb
    split at hb
    · cases hb
    · split at hb
      · cases hb
      · split at hb
        · cases hb
        · cases hb
          rw [lookup_snoc]
          show _ = Option.or _ (if y = c then _ else _)
          by_cases hy : y = c
          · subst hy; simp
          · rw [if_neg hy, if_neg (fun hh => hy hh.symm)]
  | «with» t v =>
    simp only at hty hb
    have hf := register_fr c t a hc
    have hid := register_id t a
    cases hreg : a.register t with
    | mk r a1 =>
      rw [hreg] at hf hid
      simp only [hreg] at hty hb
      cases r with
      | error f => cases hb
      | ok y =>
        have h1 := (hid y rfl).1
        simp only at hty hb h1
        have h2 : ty t = some y := hty t y (by
          unfold AWorld.give
          split
          · exact h1
          · split
            · exact h1
            · exact h1)
        unfold AWorld.give at hb
        split at hb
        · cases hb
        · split at hb
          · cases hb
          · next m' hm' =>
            cases hb
            rw [lookup_snoc]
            show _ = Option.or _ (if ty t = some c then _ else _)
            rw [h2]
            by_cases hy : y = c
            · subst hy
              have h3 := hf.2.1
              simp only at h3
              rw [hm', hm] at h3
              cases h3
              simp
            · rw [if_neg (fun hh => hy (Option.some.inj hh)), if_neg (fun hh => hy hh.symm)]

theorem acts_offers {ty : Ty → Option EcsId} {c : EcsId} {m : ComponentMeta} (xs : List BAct) : ∀ {a : AWorld} {b b' : AWorld.Draft}, .build ∉ xs → b.entity ≠ c →
    a.isAlive c = .ok true → a.info c = some m → (∀ t id, (AWorld.acts b xs a).2.types t = some id → ty t = some id) → (AWorld.acts b xs a).1 = .ok b' →
    b'.entity = b.entity ∧ b'.vals.lookup c = (b.vals.lookup c).or (xs.findSome? (offers ty c m.layout.size)) := by
  induction xs with
  | nil => intro a b b' _ _ _ _ _ hb; cases hb; exact ⟨rfl, by simp⟩
  | cons x xs ih =>
    intro a b b' hn he hc hm hty hb
    obtain ⟨f1, f2⟩ := act_fr (x := c) b he x a
    obtain ⟨g1, g2, _⟩ := f1 hc
    have h1 := @act_offers ty b
    unfold AWorld.acts at hty hb
    cases hx : a.act b x with
    | mk r a1 =>
      rw [hx] at f2 g1 g2
      simp only [hx] at hty hb
      cases r with
      | error f => cases hb
      | ok b1 =>
        simp only at hty hb
        have h2 := h1 (b' := b1) (x := x) (a := a) (c := c) (m := m) (fun hh => hn (by rw [hh]; exact List.mem_cons_self)) hc hm
          (fun t id hh => hty t id (acts_keeps xs b1 a1 t id (by rw [hx] at hh; exact hh))) (by rw [hx])
        have h3 := f2 b1 rfl
        obtain ⟨k1, k2⟩ := ih (fun hh => hn (List.mem_cons_of_mem _ hh)) (by rw [h3]; exact he) g1 (g2.trans hm) hty hb
        refine ⟨k1.trans h3, ?_⟩
        rw [k2, h2, List.findSome?_cons]
        cases b.vals.lookup c <;> cases offers ty c m.layout.size x <;> rfl

theorem any_build {as : List BAct} : builds as = true ↔ .build ∈ as := by
  unfold builds
  rw [List.any_eq_true]
  constructor
  · rintro ⟨x, hx, hy⟩
    cases x <;> first | exact hx | cases hy
  · exact fun h => ⟨_, h, rfl⟩

theorem makes_nil {ty : Ty → Option EcsId} {c : EcsId} {n : Nat} {as : List BAct} (h : .build ∉ as) : makes ty c n as = none := by
  unfold makes
  rw [if_neg (fun hh => h (any_build.1 hh))]

theorem makes_build {ty : Ty → Option EcsId} {c : EcsId} {n : Nat} (xs : List BAct) : makes ty c n (xs ++ [.build]) = some (xs.findSome? (offers ty c n)) := by
  unfold makes
  rw [if_pos (any_build.2 (by simp))]
  rw [List.findSome?_append]
  rw [show [BAct.build].findSome? (offers ty c n) = none from rfl, Option.or_none]

/-- `Stands` on the maps. -/
def Holds (a : AWorld) (e c : EcsId) : Option (Option Bytes) → Prop
  | none => a.info e = none
  | some o => (∃ m, a.info e = some m) ∧ a.cell e c = o

theorem spawn_pass {ty : Ty → Option EcsId} {a : AWorld} {e c : EcsId} {m : ComponentMeta} (hc : a.isAlive c = .ok true) (hm : a.info c = some m) (he : a.info e = none)
    (kind : SpawnKind) (as : List BAct) (hn : .build ∉ as.dropLast) (hty : ∀ t id, (a.spawn kind as).2.types t = some id → ty t = some id)
    (hne : ∀ t, (a.spawn kind as).2.types t ≠ some e) :
    Holds (a.spawn kind as).2 e c (pass ty e c m.layout.size (.spawn kind as, (a.spawn kind as).1.map .id) none) := by
  obtain ⟨c1, c2⟩ := spawn_alive hc
  unfold AWorld.spawn AWorld.spawnId at hty hne ⊢
  cases hs : a.ents.spawn with
  | mk r s =>
    rw [hs] at c1 c2
    simp only [hs] at hty hne ⊢
    cases r with
    | error f => exact he
    | ok x =>
      have hxc : x ≠ c := c2 x rfl
      simp only at hty hne ⊢
      by_cases hnb : .build ∉ as
      · have hk := acts_info (e := e) as (a := { a with ents := s }) (b := ⟨x, AWorld.metaOf kind, []⟩) hnb
        revert hk hne
        cases AWorld.acts ⟨x, AWorld.metaOf kind, []⟩ as { a with ents := s } with
        | mk r a1 =>
          intro hne hk
          cases r with
          | error f => exact (hk hne).trans he
          | ok b1 =>
            show Holds a1 e c (if x = e then makes ty c _ as else none)
            rw [makes_nil hnb, ite_self]
            exact (hk hne).trans he
      · have hmem : .build ∈ as := Classical.not_not.1 hnb
        have hnn : as ≠ [] := fun hh => by rw [hh] at hmem; cases hmem
        have hlast : as.getLast hnn = .build := by
          rw [← List.dropLast_concat_getLast hnn] at hmem
          rcases List.mem_append.1 hmem with hh | hh
          · exact absurd hh hn
          · exact (List.mem_singleton.1 hh).symm
        obtain ⟨xs, hxs⟩ : ∃ xs, as = xs ++ [.build] := ⟨as.dropLast, by rw [← hlast]; exact (List.dropLast_concat_getLast hnn).symm⟩
        subst hxs
        rw [List.dropLast_concat] at hn
        rw [acts_append] at hty hne ⊢
        have hk := acts_info (e := e) xs (a := { a with ents := s }) (b := ⟨x, AWorld.metaOf kind, []⟩) hn
        have hv := fun b' => acts_offers (ty := ty) (c := c) (m := m) xs (a := { a with ents := s }) (b := ⟨x, AWorld.metaOf kind, []⟩) (b' := b') hn hxc c1 hm
        revert hk hne hty hv
        cases AWorld.acts ⟨x, AWorld.metaOf kind, []⟩ xs { a with ents := s } with
        | mk r a1 =>
          intro hty hne hk hv
          cases r with
          | error f => exact (hk hne).trans he
          | ok b1 =>
            obtain ⟨q1, q2⟩ := hv b1 hty rfl
            have q3 := (hk hne).trans he
            show Holds (a1.finish b1) e c (if x = e then makes ty c _ (xs ++ [.build]) else none)
            simp only at q1
            by_cases hxe : x = e
            · subst hxe
              rw [if_pos rfl, makes_build]
              refine ⟨⟨b1.cmeta, ?_⟩, ?_⟩
              · show (if x = b1.entity then _ else _) = _
                rw [q1, if_pos rfl]
              · show (if x = b1.entity then b1.vals.lookup c else a1.cell x c) = _
                rw [q1, if_pos rfl, q2]
                rfl
            · rw [if_neg hxe]
              show (if e = b1.entity then _ else a1.info e) = none
              rw [q1, if_neg (fun hh => hxe hh.symm)]
              exact q3

theorem despawn_info {a : AWorld} {e : EcsId} (he : a.isAlive e = .ok true) {b : Bool} (h : (a.despawn e).1 = .ok b) : (a.despawn e).2.info e = none ∧ b = true := by
  unfold AWorld.despawn at h ⊢
  simp only [he] at h ⊢
  split at h
  · cases h
  · next hu =>
    rw [if_neg hu]
    split at h
    · cases h
    · cases h
    · next h1 h2 =>
      cases h
      exact ⟨if_pos rfl, rfl⟩

theorem despawn_none {a : AWorld} {e : EcsId} (he : a.info e = none) (x : EcsId) : (a.despawn x).2.info e = none := by
  unfold AWorld.despawn
  repeat' split
  all_goals first | exact he | skip
  show (if e = x then none else a.info e) = none
  rw [he, ite_self]

theorem lockAll_info (b : Bool) (fs : List Fetch) (p : Bool) (a : AWorld) : (a.lockAll b fs p).2.info = a.info := by
  unfold AWorld.lockAll
  split
  · rfl
  · split <;> rfl

theorem query_info (ps : List Param) (p : Bool) (a : AWorld) : (a.query ps p).2.info = a.info := by
  unfold AWorld.query
  split
  · rfl
  · exact lockAll_info ..

theorem addComponent_info {x : EcsId} {t : Ty} {v : Bytes} {a : AWorld} {e : EcsId} (h : (a.addComponent x t v).2.types t ≠ some e) :
    (a.addComponent x t v).2.info e = a.info e := by
  have hr := @register_info t a e
  unfold AWorld.addComponent at h ⊢
  revert h
  split
  · exact fun _ => rfl
  · exact fun _ => rfl
  · intro h
    cases hreg : a.register t with
    | mk r a1 =>
      rw [hreg] at hr
      simp only [hreg] at h ⊢
      cases r with
      | error f => exact hr h
      | ok c =>
        simp only at h ⊢
        rw [addDyn_types] at h
        rw [addDyn_info]
        exact hr h

theorem removeComponent_info {x : EcsId} {t : Ty} {a : AWorld} {e : EcsId} (h : (a.removeComponent x t).2.types t ≠ some e) :
    (a.removeComponent x t).2.info e = a.info e := by
  have hr := @register_info t a e
  unfold AWorld.removeComponent at h ⊢
  revert h
  split
  · exact fun _ => rfl
  · exact fun _ => rfl
  · intro h
    cases hreg : a.register t with
    | mk r a1 =>
      rw [hreg] at hr
      simp only [hreg] at h ⊢
      cases r with
      | error f => exact hr h
      | ok c =>
        simp only at h ⊢
        rw [removeDyn_types] at h
        rw [removeDyn_info]
        exact hr h

end AW

/-- An entity that is not in the world does not come into it except by a builder. -/
theorem ask_none {q : Ask} {a : AWorld} {e : EcsId} (hn : Neat q) (hq : ∀ kind as, q ≠ .spawn kind as) (he : a.info e = none)
    (hne : ∀ t, (a.ask q).2.types t ≠ some e) : (a.ask q).2.info e = none := by
  cases q with
  | spawn kind as => exact absurd rfl (hq kind as)
  | despawn x => exact AW.despawn_none he x
  | register t => exact (AW.register_info (hne t)).trans he
  | isAlive x => exact he
  | has t x => exact he
  | look x c n => exact he
  | call k =>
    cases k with
    | spawn kind as => exact hn.elim
    | addComponent x t v => exact (AW.addComponent_info (hne t)).trans he
    | removeComponent x t => exact (AW.removeComponent_info (hne t)).trans he
    | addDynamic x y => exact (congrFun (AW.addZst_info x y a) e).trans he
    | addDynamicWithData x y src => exact (congrFun (AW.addDyn_info x y src a) e).trans he
    | removeDynamic x y => exact (congrFun (AW.removeDyn_info x y a) e).trans he
    | despawn x =>
      have h1 : (a.ask (.call (.despawn x))).2 = (a.despawn x).2 := AW.void_snd _
      rw [h1]
      exact AW.despawn_none he x
    | register t =>
      have h1 : (a.ask (.call (.register t))).2 = (a.register t).2 := AW.void_snd _
      rw [h1] at hne ⊢
      exact (AW.register_info (hne t)).trans he
    | write x y bs => exact (congrFun (AW.write_info x y bs a) e).trans he
    | query ps p => exact (congrFun (AW.query_info ps p a) e).trans he
    | queryDynamic fs p => exact (congrFun (AW.lockAll_info false fs p a) e).trans he

theorem pass_none {ty : Ty → Option EcsId} {e c : EcsId} {n : Nat} {q : Ask} {r : Except Fault Answer} (hq : ∀ kind as, q ≠ .spawn kind as) :
    pass ty e c n (q, r) none = none := by
  unfold pass
  split
  · next h => cases h; exact absurd rfl (hq _ _)
  · exact ite_self _
  · exact ite_self _
  · rfl

theorem ask_pass {q : Ask} {e c : EcsId} {m : ComponentMeta} {ty : Ty → Option EcsId} {a : AWorld} (hia : ∀ x m, a.info x = some m → a.isAlive x = .ok true)
    (hm : a.info c = some m) (hty : ∀ t id, (a.ask q).2.types t = some id → ty t = some id)
    (hsz : ∀ t v, q = .call (.addComponent e t v) → a.types t = some c → v.take m.layout.size = v) (hn : Neat q)
    (hne : ∀ t, (a.ask q).2.types t ≠ some e) {old : Option (Option Bytes)} (ho : AW.Holds a e c old) :
    AW.Holds (a.ask q).2 e c (pass ty e c m.layout.size (q, (a.ask q).1) old) := by
  have hc := hia c m hm
  cases old with
  | none =>
    by_cases hq : ∀ kind as, q ≠ .spawn kind as
    · rw [pass_none hq]
      exact ask_none hn hq ho hne
    · obtain ⟨kind, as, rfl⟩ : ∃ kind as, q = .spawn kind as := by
        refine Classical.byContradiction fun hh => hq fun kind as h => hh ⟨kind, as, h⟩
      exact AW.spawn_pass hc hm ho kind as hn hty hne
  | some o =>
    obtain ⟨⟨me, hme⟩, ho⟩ := ho
    have he := hia e me hme
    by_cases hk : Kills (q, (a.ask q).1) e
    · have hd : ∀ b, (a.despawn e).1 = .ok b → (a.despawn e).2.info e = none := fun b hb => (AW.despawn_info he hb).1
      rcases hk with hk | hk
      · obtain ⟨rfl, h2⟩ := Prod.mk.inj hk
        rw [h2]
        show AW.Holds _ e c (if e = e then none else _)
        rw [if_pos rfl]
        have h2 : Except.map Answer.bool (a.despawn e).1 = .ok (.bool true) := h2
        cases hr : (a.despawn e).1 with
        | error f => rw [hr] at h2; cases h2
        | ok b => exact hd b hr
      · obtain ⟨rfl, h2⟩ := Prod.mk.inj hk
        rw [h2]
        show AW.Holds _ e c (if e = e then none else _)
        rw [if_pos rfl]
        have h1 : (a.ask (.call (.despawn e))).2 = (a.despawn e).2 := AW.void_snd _
        have h3 : (a.ask (.call (.despawn e))).1 = Except.map (fun _ => Answer.unit) ((a.despawn e).1.map (fun _ => ())) := by
          rw [← AW.void_fst]; rfl
        rw [h3] at h2
        rw [h1]
        cases hr : (a.despawn e).1 with
        | error f => rw [hr] at h2; cases h2
        | ok b => exact hd b hr
    · have k1 := ask_touch he hc hm (fun hh => by rw [hh] at hme; cases hme) hty hsz hk
      have k2 := ask_stays a hk he
      have hp : pass ty e c m.layout.size (q, (a.ask q).1) (some o) = some (touch ty e c m.layout.size (q, (a.ask q).1) o) := by
        unfold pass
        split
        · next kind as x heq =>
          obtain ⟨rfl, h2⟩ := Prod.mk.inj heq
          have h2 : Except.map Answer.id (a.spawn kind as).1 = .ok (.id x) := h2
          have hx : x ≠ e := by
            cases hr : (a.spawn kind as).1 with
            | error f => rw [hr] at h2; cases h2
            | ok y =>
              rw [hr] at h2; cases h2
              exact (AW.spawn_alive he).2 x ((AW.spawn_moves kind as a (fun _ => False)).2 x hr)
          rw [if_neg hx]
          rfl
        · next x v heq =>
          obtain ⟨rfl, h2⟩ := Prod.mk.inj heq
          have hx : x ≠ e := by
            rintro rfl
            refine hk (Or.inr ?_)
            rw [h2]
            have h3 : (a.ask (.call (.despawn x))).1 = Except.map (fun _ => Answer.unit) ((a.despawn x).1.map (fun _ => ())) := by
              rw [← AW.void_fst]; rfl
            rw [h3] at h2
            cases hr : (a.despawn x).1 with
            | error f => rw [hr] at h2; cases h2
            | ok b => rw [hr] at h2; cases h2; rfl
          rw [if_neg hx]
          rfl
        · next x v heq =>
          obtain ⟨rfl, h2⟩ := Prod.mk.inj heq
          have hx : x ≠ e := by
            rintro rfl
            refine hk (Or.inl ?_)
            have h3 : (a.ask (.despawn x)).1 = Except.map Answer.bool (a.despawn x).1 := rfl
            rw [h3] at h2 ⊢
            cases hr : (a.despawn x).1 with
            | error f => rw [hr] at h2; cases h2
            | ok b => rw [(AW.despawn_info he hr).2]; rfl
          rw [if_neg hx]
          rfl
        · rfl
      rw [hp, ← ho, ← k1]
      exact ⟨⟨me, k2.2.trans hme⟩, rfl⟩

theorem stands_iff {w : World} {a : AWorld} (ha : w.Shows a) (e c : EcsId) (o : Option (Option Bytes)) : w.Stands e c o ↔ AW.Holds a e c o := by
  cases o with
  | none =>
    constructor
    · intro h
      cases hx : a.info e with
      | none => exact hx
      | some m => exact absurd ((ha.info e m).1 hx) (h m)
    · intro h m hm
      have h : a.info e = none := h
      rw [(ha.info e m).2 hm] at h
      cases h
  | some o =>
    constructor
    · rintro ⟨⟨m, hm⟩, h⟩
      exact ⟨⟨m, (ha.info e m).2 hm⟩, Option.ext fun bs => (ha.cell e c bs).trans (h bs)⟩
    · rintro ⟨⟨m, hm⟩, rfl⟩
      exact ⟨⟨m, (ha.info e m).1 hm⟩, fun bs => (ha.cell e c bs).symm⟩

theorem world_pass {q : Ask} {w w' : World} {e c : EcsId} {m : ComponentMeta} {ty : Ty → Option EcsId} (hw : Safe w []) (hq : q.Ok w) {r : Except Fault Answer}
    (h : (∃ x, r = .ok x ∧ q.exec w = .ok x w') ∨ ∃ f, r = .error f ∧ q.exec w = .error f w' ∧ ¬ OutOfMemory f) (hm : w.InfoIs c m) (hn : Neat q)
    (hty : ∀ t id, w'.typeMap t = some id → ty t = some id) (hne : ∀ t, w'.typeMap t ≠ some e) (hkc : ¬ Kills (q, r) c)
    {old : Option (Option Bytes)} (ho : w.Stands e c old) : w'.InfoIs c m ∧ w'.Stands e c (pass ty e c m.layout.size (q, r) old) := by
  have hi := hw.inv.inv
  have ha := view_shows hi
  obtain ⟨s1, s2⟩ := ask_maps hw hq h
  have hia : ∀ x m, w.view.info x = some m → w.view.isAlive x = .ok true := fun x m hx => by
    rw [ha.alive]
    exact Entities.isAlive_live (hi.row_live ((infoIs_iff hi).1 ((ha.info x m).1 hx)).1)
  have hm' : w.view.info c = some m := (ha.info c m).2 hm
  have hcl : w.Alive c := Entities.isAlive_live (hi.row_live ((infoIs_iff hi).1 hm).1)
  constructor
  · rw [← s1] at hkc
    exact (s2.info c m).1 ((ask_stays w.view hkc (hia c m hm')).2.trans hm')
  · rw [stands_iff s2, ← s1]
    refine ask_pass hia hm' (fun t id hh => hty t id (by rw [← s2.types]; exact hh)) (fun t v hqq ht => ?_) hn
      (fun t hh => hne t (by rw [← s2.types]; exact hh)) ((stands_iff ha e c old).1 ho)
    subst hqq
    have hl : v.length = t.size := hq
    rw [ha.types] at ht
    have := (ha.info _ _).2 (hi.type_info ht (Entities.isAlive_iff.1 hcl))
    rw [hm'] at this
    cases this
    exact List.take_of_length_le (by rw [hl]; exact Nat.le_refl _)

theorem FreeTalk.course {w w' : World} {e c : EcsId} {m : ComponentMeta} {tr : List (Ask × Except Fault Answer)} (hw : Safe w []) (h : FreeTalk w tr w')
    (hm : w.InfoIs c m) (hn : ∀ p ∈ tr, Neat p.1) (hdc : ¬ Despawned tr c) (hne : ∀ t, w'.typeMap t ≠ some e) : ∀ {old : Option (Option Bytes)}, w.Stands e c old →
    w'.InfoIs c m ∧ w'.Stands e c (World.course w'.typeMap e c m.layout.size tr old) := by
  induction h with
  | done w => intro old ho; exact ⟨hm, ho⟩
  | @ok w w1 w2 q x rest h1 h2 h3 h4 ih =>
    intro old ho
    have hw1 := (ask_safe hw h1).1 _ _ h2 h3
    obtain ⟨k1, k2⟩ := world_pass (ty := w2.typeMap) hw h1 (Or.inl ⟨x, rfl, h2⟩) hm (hn _ List.mem_cons_self) (fun t id hh => h4.keeps hw1 hh)
      (fun t hh => hne t (h4.keeps hw1 hh)) (not_despawned_cons hdc).1 ho
    exact ih hw1 k1 (fun p hp => hn p (List.mem_cons_of_mem _ hp)) (not_despawned_cons hdc).2 hne k2
  | @panic w w1 w2 q f rest h1 h2 h3 h4 h5 h6 ih =>
    intro old ho
    have hw1 := (ask_safe hw h1).2 _ _ h2 (fun hh => h3 (Or.inl hh)) h4 h5
    obtain ⟨k1, k2⟩ := world_pass (ty := w2.typeMap) hw h1 (Or.inr ⟨f, rfl, h2, h3⟩) hm (hn _ List.mem_cons_self) (fun t id hh => h6.keeps hw1 hh)
      (fun t hh => hne t (h6.keeps hw1 hh)) (not_despawned_cons hdc).1 ho
    exact ih hw1 k1 (fun p hp => hn p (List.mem_cons_of_mem _ hp)) (not_despawned_cons hdc).2 hne k2

/-! ## From the beginning -/

namespace AW

theorem act_draft {b b' : AWorld.Draft} {x : BAct} {a : AWorld} (h : (a.act b x).1 = .ok b') : b'.entity = b.entity ∧ b'.cmeta = b.cmeta := by
  unfold AWorld.act AWorld.give at h
  revert h
  repeat' split
  all_goals intro h
  all_goals first | (cases h; exact ⟨rfl, rfl⟩) | cases h

theorem acts_draft (xs : List BAct) : ∀ {b b' : AWorld.Draft} {a : AWorld}, (AWorld.acts b xs a).1 = .ok b' → b'.entity = b.entity ∧ b'.cmeta = b.cmeta := by
  induction xs with
  | nil => intro b b' a h; cases h; exact ⟨rfl, rfl⟩
  | cons x xs ih =>
    intro b b' a h
    unfold AWorld.acts at h
    cases hx : a.act b x with
    | mk r a1 =>
      simp only [hx] at h
      cases r with
      | error f => cases h
      | ok b1 =>
        obtain ⟨h1, h2⟩ := act_draft (b' := b1) (by rw [hx])
        obtain ⟨h3, h4⟩ := ih h
        exact ⟨h3.trans h1, h4.trans h2⟩

theorem act_cell {b : AWorld.Draft} {x : BAct} {a : AWorld} (hx : x ≠ .build) : (a.act b x).2.cell = a.cell := by
  unfold AWorld.act
  cases x with
  | build => exact absurd rfl hx
  | withDynamicWithData c v =>
    simp only
    unfold AWorld.give
    repeat' split
    all_goals rfl
  | withDynamic c =>
    simp only
    repeat' split
    all_goals rfl
  | «with» t v =>
    simp only
    have hr := register_cell t a
    cases hreg : a.register t with
    | mk r a1 =>
      rw [hreg] at hr
      cases r with
      | error f => exact hr
      | ok c =>
        simp only
        unfold AWorld.give
        repeat' split
        all_goals exact hr

theorem acts_cell (xs : List BAct) : ∀ {b : AWorld.Draft} {a : AWorld}, .build ∉ xs → (AWorld.acts b xs a).2.cell = a.cell := by
  induction xs with
  | nil => intro b a _; rfl
  | cons x xs ih =>
    intro b a hn
    have h1 := act_cell (b := b) (a := a) (x := x) (fun hh => hn (by rw [hh]; exact List.mem_cons_self))
    unfold AWorld.acts
    cases hx : a.act b x with
    | mk r a1 =>
      rw [hx] at h1
      cases r with
      | error f => exact h1
      | ok b1 => exact (ih (fun hh => hn (List.mem_cons_of_mem _ hh))).trans h1

/-- An id without metadata cannot be given to a builder. -/
theorem act_misses {b b' : AWorld.Draft} {x : BAct} {a : AWorld} {c : EcsId} (hx : x ≠ .build) (hc : a.info c = none)
    (hty : ∀ t, (a.act b x).2.types t ≠ some c) (hb : (a.act b x).1 = .ok b') : b'.vals.lookup c = b.vals.lookup c := by
  have hi := act_info hx hty
  unfold AWorld.act at hty hb
  cases x with
  | build => exact absurd rfl hx
  | withDynamicWithData y v =>
    simp only at hb
    unfold AWorld.give at hb
    split at hb
    · cases hb
    · split at hb
      · cases hb
      · next m' hm' =>
        cases hb
        rw [lookup_snoc, if_neg (by rintro rfl; rw [hc] at hm'; cases hm'), Option.or_none]
  | withDynamic y =>
    simp only at hb
    split at hb
    · cases hb
    · split at hb
      · cases hb
      · next m' hm' =>
        split at hb
        · cases hb
        · cases hb
          rw [lookup_snoc, if_neg (by rintro rfl; rw [hc] at hm'; cases hm'), Option.or_none]
  | «with» t v =>
    simp only at hty hb
    have hid := register_id t a
    cases hreg : a.register t with
    | mk r a1 =>
      rw [hreg] at hid
      simp only [hreg] at hty hb
      cases r with
      | error f => cases hb
      | ok y =>
        have h1 := (hid y rfl).1
        simp only at hty hb h1
        unfold AWorld.give at hb hty
        cases g1 : a1.isAlive y with
        | error f => simp only [g1] at hb; cases hb
        | ok _ =>
          simp only [g1] at hb hty
          cases g2 : a1.info y with
          | none => simp only [g2] at hb; cases hb
          | some m' =>
            simp only [g2] at hb hty
            cases hb
            rw [lookup_snoc, if_neg (by rintro rfl; exact hty t h1), Option.or_none]

theorem acts_misses {c : EcsId} (xs : List BAct) : ∀ {b b' : AWorld.Draft} {a : AWorld}, .build ∉ xs → a.info c = none →
    (∀ t, (AWorld.acts b xs a).2.types t ≠ some c) → (AWorld.acts b xs a).1 = .ok b' → b'.vals.lookup c = b.vals.lookup c := by
  induction xs with
  | nil => intro b b' a _ _ _ hb; cases hb; rfl
  | cons x xs ih =>
    intro b b' a hn hc hty hb
    have hx0 : x ≠ .build := fun hh => hn (by rw [hh]; exact List.mem_cons_self)
    unfold AWorld.acts at hty hb
    cases hx : a.act b x with
    | mk r a1 =>
      simp only [hx] at hty hb
      cases r with
      | error f => cases hb
      | ok b1 =>
        simp only at hty hb
        have hk : ∀ t, (a.act b x).2.types t ≠ some c := fun t hh => hty t (acts_keeps xs b1 a1 t c (by rw [hx] at hh; exact hh))
        have h1 := act_misses (b' := b1) hx0 hc hk (by rw [hx])
        have h2 := act_info hx0 hk
        rw [hx] at h2
        exact (ih (fun hh => hn (List.mem_cons_of_mem _ hh)) (h2.trans hc) hty hb).trans h1

theorem last_build {as : List BAct} (hn : .build ∉ as.dropLast) (hmem : .build ∈ as) : ∃ xs, as = xs ++ [.build] ∧ .build ∉ xs := by
  have hnn : as ≠ [] := fun hh => by rw [hh] at hmem; cases hmem
  have hlast : as.getLast hnn = .build := by
    rw [← List.dropLast_concat_getLast hnn] at hmem
    rcases List.mem_append.1 hmem with hh | hh
    · exact absurd hh hn
    · exact (List.mem_singleton.1 hh).symm
  exact ⟨as.dropLast, by rw [← hlast]; exact (List.dropLast_concat_getLast hnn).symm, hn⟩

/-- What a successful builder does to the maps. -/
theorem spawn_maps {a : AWorld} {kind : SpawnKind} {as : List BAct} (hn : .build ∉ as.dropLast) {x : EcsId} (h : (a.spawn kind as).1 = .ok x) :
    a.ents.spawn.1 = .ok x ∧
    (∀ e, e ≠ x → (∀ t, (a.spawn kind as).2.types t ≠ some e) → (a.spawn kind as).2.info e = a.info e) ∧
    (.build ∈ as → (a.spawn kind as).2.info x = some (AWorld.metaOf kind)) ∧
    (.build ∉ as → (∀ t, (a.spawn kind as).2.types t ≠ some x) → (a.spawn kind as).2.info x = a.info x) ∧
    (a.info x = none → (∀ t, (a.spawn kind as).2.types t ≠ some x) → (∀ e, a.cell e x = none) → ∀ e, (a.spawn kind as).2.cell e x = none) := by
  refine ⟨(spawn_moves kind as a (fun _ => False)).2 x h, ?_⟩
  unfold AWorld.spawn AWorld.spawnId at h ⊢
  cases hs : a.ents.spawn with
  | mk r s =>
    simp only [hs] at h ⊢
    cases r with
    | error f => cases h
    | ok y =>
      simp only at h ⊢
      by_cases hb : .build ∈ as
      · obtain ⟨xs, rfl, hx⟩ := last_build hn hb
        rw [acts_append] at h ⊢
        have k1 := fun e => acts_info (e := e) xs (a := { a with ents := s }) (b := ⟨y, AWorld.metaOf kind, []⟩) hx
        have k2 := fun b' => acts_draft xs (a := { a with ents := s }) (b := ⟨y, AWorld.metaOf kind, []⟩) (b' := b')
        have k3 := acts_cell xs (a := { a with ents := s }) (b := ⟨y, AWorld.metaOf kind, []⟩) hx
        have k4 := fun b' c => acts_misses (c := c) xs (a := { a with ents := s }) (b := ⟨y, AWorld.metaOf kind, []⟩) (b' := b') hx
        revert h k1 k2 k3 k4
        cases AWorld.acts ⟨y, AWorld.metaOf kind, []⟩ xs { a with ents := s } with
        | mk r a1 =>
          intro h k1 k2 k3 k4
          cases r with
          | error f => cases h
          | ok b1 =>
            have h : Except.ok y = .ok x := h
            cases h
            obtain ⟨q1, q2⟩ := k2 b1 rfl
            simp only at q1 q2
            refine ⟨fun e he ht => ?_, fun _ => ?_, fun hh => absurd hb hh, fun h1 h2 h3 e => ?_⟩
            · show (if e = b1.entity then _ else a1.info e) = a.info e
              rw [q1, if_neg he]
              exact k1 e ht
            · show (if x = b1.entity then some b1.cmeta else _) = _
              rw [q1, if_pos rfl, q2]
            · show (if e = b1.entity then b1.vals.lookup x else a1.cell e x) = none
              split
              · exact k4 b1 x h1 h2 rfl
              · rw [k3]; exact h3 e
      · have k1 := fun e => acts_info (e := e) as (a := { a with ents := s }) (b := ⟨y, AWorld.metaOf kind, []⟩) hb
        have k3 := acts_cell as (a := { a with ents := s }) (b := ⟨y, AWorld.metaOf kind, []⟩) hb
        revert h k1 k3
        cases AWorld.acts ⟨y, AWorld.metaOf kind, []⟩ as { a with ents := s } with
        | mk r a1 =>
          intro h k1 k3
          cases r with
          | error f => cases h
          | ok b1 =>
            have h : Except.ok y = .ok x := h
            cases h
            exact ⟨fun e _ ht => k1 e ht, fun hh => absurd hh hb, fun _ ht => k1 x ht, fun _ _ h3 e => by rw [show a1.cell = a.cell from k3]; exact h3 e⟩

theorem spawn_fails {a : AWorld} {kind : SpawnKind} {as : List BAct} (hn : .build ∉ as.dropLast) {f : Fault} (h : (a.spawn kind as).1 = .error f) {e : EcsId}
    (ht : ∀ t, (a.spawn kind as).2.types t ≠ some e) : (a.spawn kind as).2.info e = a.info e := by
  unfold AWorld.spawn AWorld.spawnId at h ht ⊢
  cases hs : a.ents.spawn with
  | mk r s =>
    simp only [hs] at h ht ⊢
    cases r with
    | error f => rfl
    | ok y =>
      simp only at h ht ⊢
      by_cases hb : .build ∈ as
      · obtain ⟨xs, rfl, hx⟩ := last_build hn hb
        rw [acts_append] at h ht ⊢
        have k1 := acts_info (e := e) xs (a := { a with ents := s }) (b := ⟨y, AWorld.metaOf kind, []⟩) hx
        revert h ht k1
        cases AWorld.acts ⟨y, AWorld.metaOf kind, []⟩ xs { a with ents := s } with
        | mk r a1 =>
          intro h ht k1
          cases r with
          | error f => exact k1 ht
          | ok b1 => cases h
      · have k1 := acts_info (e := e) as (a := { a with ents := s }) (b := ⟨y, AWorld.metaOf kind, []⟩) hb
        revert h ht k1
        cases AWorld.acts ⟨y, AWorld.metaOf kind, []⟩ as { a with ents := s } with
        | mk r a1 =>
          intro h ht k1
          cases r with
          | error f => exact k1 ht
          | ok b1 => cases h

end AW

theorem makes_some {ty : Ty → Option EcsId} {c : EcsId} {n : Nat} {as : List BAct} :
    (makes ty c n as).isSome = builds as := by
  unfold makes
  split
  · next h => rw [h]; rfl
  · next h => exact (Bool.eq_false_iff.2 h).symm

theorem pass_some {ty : Ty → Option EcsId} {e c : EcsId} {n : Nat} (p : Ask × Except Fault Answer) (old : Option (Option Bytes)) :
    (pass ty e c n p old).isSome = there e p old.isSome := by
  unfold pass
  split
  · next x as y =>
    show _ = if y = e then _ else _
    split
    · exact makes_some
    · rfl
  · next x _ =>
    show _ = if x = e then _ else _
    split <;> rfl
  · next x _ =>
    show _ = if x = e then _ else _
    split <;> rfl
  · next h1 h2 h3 =>
    rw [Option.isSome_map]
    unfold there
    split
    · next kind as x => exact (h1 kind as x rfl).elim
    · next x v => exact (h2 x v rfl).elim
    · next x v => exact (h3 x v rfl).elim
    · rfl

theorem ask_there {q : Ask} {e : EcsId} {a : AWorld} (hia : ∀ x m, a.info x = some m → a.isAlive x = .ok true) (hn : Neat q)
    (hne : ∀ t, (a.ask q).2.types t ≠ some e) : ((a.ask q).2.info e).isSome = there e (q, (a.ask q).1) (a.info e).isSome := by
  cases he : a.info e with
  | some m =>
    have h := ask_pass (q := q) (e := e) (c := e) (ty := (a.ask q).2.types) hia he (fun _ _ hh => hh)
      (fun t v _ hh => absurd (ask_keeps q a t e hh) (hne t)) hn hne (old := some (a.cell e e)) ⟨⟨m, he⟩, rfl⟩
    have hp := pass_some (ty := (a.ask q).2.types) (e := e) (c := e) (n := m.layout.size) (q, (a.ask q).1) (some (a.cell e e))
    rw [show (some m).isSome = (some (a.cell e e)).isSome from rfl, ← hp]
    cases hx : pass (a.ask q).2.types e e m.layout.size (q, (a.ask q).1) (some (a.cell e e)) with
    | none => rw [hx] at h; rw [show (a.ask q).2.info e = none from h]; rfl
    | some o => rw [hx] at h; obtain ⟨⟨m', h⟩, _⟩ := h; rw [h]; rfl
  | none =>
    by_cases hq : ∀ kind as, q ≠ .spawn kind as
    · rw [ask_none hn hq he hne]
      have := pass_some (ty := fun _ => none) (e := e) (c := e) (n := 0) (q, (a.ask q).1) none
      rw [pass_none hq] at this
      exact this
    · obtain ⟨kind, as, rfl⟩ : ∃ kind as, q = .spawn kind as := by
        refine Classical.byContradiction fun hh => hq fun kind as h => hh ⟨kind, as, h⟩
      have hne : ∀ t, (a.spawn kind as).2.types t ≠ some e := hne
      show ((a.spawn kind as).2.info e).isSome = there e (.spawn kind as, Except.map Answer.id (a.spawn kind as).1) false
      cases hr : (a.spawn kind as).1 with
      | error f => rw [AW.spawn_fails hn hr hne, he]; rfl
      | ok x =>
        obtain ⟨_, k1, k2, k3, _⟩ := AW.spawn_maps hn hr
        show _ = if x = e then _ else false
        split
        · next hxe =>
          subst hxe
          by_cases hb : .build ∈ as
          · rw [k2 hb, AW.any_build.2 hb]; rfl
          · rw [k3 hb hne, he, Bool.eq_false_iff.2 (fun hh => hb (AW.any_build.1 hh))]; rfl
        · next hxe => rw [k1 e (fun hh => hxe hh.symm) hne, he]; rfl

theorem view_info_alive {w : World} (hi : Inv w) : ∀ x m, w.view.info x = some m → w.view.isAlive x = .ok true := fun x m hx => by
  have ha := view_shows hi
  rw [ha.alive]
  exact Entities.isAlive_live (hi.row_live ((infoIs_iff hi).1 ((ha.info x m).1 hx)).1)

theorem FreeTalk.there {w w' : World} {e : EcsId} {tr : List (Ask × Except Fault Answer)} (hw : Safe w []) (h : FreeTalk w tr w') (hn : ∀ p ∈ tr, Neat p.1)
    (hne : ∀ t, w'.typeMap t ≠ some e) : (w'.view.info e).isSome = tr.foldl (fun x p => World.there e p x) (w.view.info e).isSome := by
  induction h with
  | done w => rfl
  | @ok w w1 w2 q x rest h1 h2 h3 h4 ih =>
    have hw1 := (ask_safe hw h1).1 _ _ h2 h3
    obtain ⟨s1, s2⟩ := ask_maps hw h1 (Or.inl ⟨x, rfl, h2⟩)
    have := ask_there (e := e) (view_info_alive hw.inv.inv) (hn _ List.mem_cons_self) (fun t hh => hne t (h4.keeps hw1 (by rw [← s2.types]; exact hh)))
    rw [ih hw1 (fun p hp => hn p (List.mem_cons_of_mem _ hp)) hne, shows_unique (view_shows hw1.inv.inv) s2, this, s1]
    rfl
  | @panic w w1 w2 q f rest h1 h2 h3 h4 h5 h6 ih =>
    have hw1 := (ask_safe hw h1).2 _ _ h2 (fun hh => h3 (Or.inl hh)) h4 h5
    obtain ⟨s1, s2⟩ := ask_maps hw h1 (Or.inr ⟨f, rfl, h2, h3⟩)
    have := ask_there (e := e) (view_info_alive hw.inv.inv) (hn _ List.mem_cons_self) (fun t hh => hne t (h6.keeps hw1 (by rw [← s2.types]; exact hh)))
    rw [ih hw1 (fun p hp => hn p (List.mem_cons_of_mem _ hp)) hne, shows_unique (view_shows hw1.inv.inv) s2, this, s1]
    rfl

/-- A component that was just built is not to be found anywhere. -/
theorem fresh_component {w w' : World} (hw : Safe w []) {kind : SpawnKind} {as : List BAct} (hq : Ask.Ok w (.spawn kind as)) (hn : .build ∉ as.dropLast)
    {c : EcsId} (h : Ask.exec (.spawn kind as) w = .ok (.id c) w') (hne : ∀ t, w'.typeMap t ≠ some c) :
    (.build ∈ as → w'.InfoIs c (AWorld.metaOf kind)) ∧ ∀ e bs, ¬ w'.Has e c bs := by
  have hi := hw.inv.inv
  have ha := view_shows hi
  obtain ⟨s1, s2⟩ := ask_maps hw hq (Or.inl ⟨_, rfl, h⟩)
  have s1 : Except.map Answer.id (w.view.spawn kind as).1 = .ok (.id c) := s1
  have s2 : w'.Shows (w.view.spawn kind as).2 := s2
  have hr : (w.view.spawn kind as).1 = .ok c := by
    cases hr : (w.view.spawn kind as).1 with
    | error f => rw [hr] at s1; cases s1
    | ok y => rw [hr] at s1; cases s1; rfl
  obtain ⟨k0, _, k2, _, k4⟩ := AW.spawn_maps hn hr
  have hdead : w.view.isAlive c ≠ .ok true := fun hh => (AW.spawn_alive hh).2 c k0 rfl
  refine ⟨fun hb => (s2.info _ _).1 (k2 hb), fun e bs hh => ?_⟩
  have h1 : w.view.info c = none := by
    cases hx : w.view.info c with
    | none => rfl
    | some m => exact absurd (view_info_alive hi c m hx) hdead
  have h2 : ∀ e, w.view.cell e c = none := fun e => by
    cases hx : w.view.cell e c with
    | none => rfl
    | some bs =>
      obtain ⟨p, hp⟩ := has_points ((ha.cell e c bs).1 hx)
      obtain ⟨m, hm⟩ := hp.info hi
      exact absurd (view_info_alive hi c m ((ha.info c m).2 hm)) hdead
  have := k4 h1 (fun t hh => hne t (by rw [← s2.types]; exact hh)) h2 e
  rw [(s2.cell e c bs).2 hh] at this
  cases this

theorem offers_untyped {ty : Ty → Option EcsId} {c : EcsId} (h : ∀ t, ty t ≠ some c) (n : Nat) : offers ty c n = offers (fun _ => none) c n := by
  funext x
  cases x with
  | «with» t v => show (if ty t = some c then some (v.take n) else none) = if (none : Option EcsId) = some c then some (v.take n) else none; rw [if_neg (h t), if_neg (fun hh => by cases hh)]
  | _ => rfl

theorem touch_untyped {ty : Ty → Option EcsId} {c : EcsId} (h : ∀ t, ty t ≠ some c) (e : EcsId) (n : Nat) : touch ty e c n = touch (fun _ => none) e c n := by
  funext p old
  obtain ⟨q, r⟩ := p
  cases r with
  | error f => cases q <;> first | rfl | (next k => cases k <;> rfl)
  | ok v =>
    cases q with
    | call k =>
      cases k with
      | addComponent x t v => show (if x = e ∧ ty t = some c then _ else _) = if x = e ∧ none = some c then _ else _; rw [if_neg (fun hh => h t hh.2), if_neg (fun hh => by cases hh.2)]
      | removeComponent x t => show (if x = e ∧ ty t = some c then _ else _) = if x = e ∧ none = some c then _ else _; rw [if_neg (fun hh => h t hh.2), if_neg (fun hh => by cases hh.2)]
      | _ => rfl
    | _ => rfl

theorem course_untyped {ty : Ty → Option EcsId} {c : EcsId} (h : ∀ t, ty t ≠ some c) (e : EcsId) (n : Nat) : course ty e c n = course (fun _ => none) e c n := by
  funext tr old
  unfold course
  congr 1
  funext x p
  unfold pass
  rw [touch_untyped h]
  unfold makes
  rw [offers_untyped h]

end World
end Ellecs
