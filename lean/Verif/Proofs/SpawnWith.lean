import Verif.Proofs.Acts
/-! # Spawning with a chain of builder calls -/
namespace Ellecs
namespace World

/-- `w'` is `w` with the new entity `e` (in a table if `built`, then with components `P`) and entities for some more types.
`E` lists the drop calls owed for the values of `e`. -/
structure Made (w w' : World) (e : EcsId) (built : Prop) (P : EcsId → Bytes → Prop) (E : List DropEv) (cm : ComponentMeta) :
    Prop where
  inv : Inv w'
  ready : w'.Ready
  nowrap : w.entities.NoWrap → w'.entities.NoWrap
  live : ∀ x, w'.entities.Live x ↔ w.entities.Live x ∨ NewTy w w' x ∨ x = e
  known : ∀ x, w.entities.Kept x → w'.entities.Kept x
  fresh : ∀ y, w.entities.Live y → y.uindex ≠ e.uindex
  unknown : ¬ w.entities.Kept e
  newUnknown : ∀ x, NewTy w w' x → ¬ w.entities.Kept x
  notType : ¬ NewTy w w' e
  typ : ∀ t id, w.typeMap t = some id → w'.typeMap t = some id
  comp : ∀ x, w.entities.Live x → compOf w'.metas x.uindex = compOf w.metas x.uindex
  cm : built → compOf w'.metas e.uindex = some cm
  look : ∀ id i, w.lockLookup id = some i → w'.lockLookup id = some i
  locks : ∃ n, w'.locks = w.locks ++ List.replicate n RwLock.new
  tight : ∀ c, w'.lockLookup c ≠ none → w.lockLookup c ≠ none ∨ ∃ bs, P c bs
  used : ∀ c, w'.Used c ↔ w.Used c ∨ ∃ bs, P c bs
  row : ∀ x, w'.Row x ↔ w.Row x ∨ NewTy w w' x ∨ (built ∧ x = e)
  others : ∀ x, x ≠ e → ∀ c bs, w'.Has x c bs ↔ w.Has x c bs
  self : ∀ c bs, w'.Has e c bs ↔ P c bs
  log : w'.log = w.log
  evs : w'.storedEvs.Perm (w.storedEvs ++ E)

theorem Inv.not_has {w : World} (h : Inv w) {e : EcsId} (hu : ¬ w.entities.Kept e) (c : EcsId) (bs : Bytes) : ¬ w.Has e c bs :=
  fun hh => hu (h.row_live (h.has_live hh)).kept

theorem Made.ofSpawn {w : World} {s' : Entities} {e : EcsId} {r : Option (List EcsId × Bytes × Nat)} (cm : ComponentMeta)
    (h : Inv w) (hi : Inv { w with entities := s', reuse := r })
    (hn : Ready { w with entities := s' } ∧ (w.entities.NoWrap → s'.NoWrap)) (hl : ∀ x, s'.Live x ↔ w.entities.Live x ∨ x = e) (hf : ∀ x, w.entities.Live x → x.uindex ≠ e.uindex)
    (hk : ∀ x, w.entities.Kept x → s'.Kept x) (hu : ¬ w.entities.Kept e) :
    Made w { w with entities := s', reuse := r } e False (fun _ _ => False) [] cm where
  inv := hi
  ready := hn.1
  nowrap := hn.2
  live := fun x => ⟨fun hx => ((hl x).1 hx).imp_right Or.inr,
    fun hx => (hl x).2 (hx.imp_right (fun hh => hh.resolve_left (newTy_same rfl)))⟩
  known := hk
  fresh := hf
  unknown := hu
  newUnknown := fun x hx => absurd hx (newTy_same rfl)
  notType := newTy_same rfl
  typ := fun _ _ ht => ht
  comp := fun _ _ => rfl
  cm := fun hb => hb.elim
  look := fun _ _ hl => hl
  locks := ⟨0, by simp⟩
  tight := fun _ hc => Or.inl hc
  used := fun c => ⟨fun hc => Or.inl hc, fun hc => hc.elim id (fun ⟨_, hh⟩ => hh.elim)⟩
  row := fun x => ⟨Or.inl, fun hx => hx.elim id
    (fun hh => hh.elim (fun hh => absurd hh (newTy_same rfl)) (fun hh => hh.1.elim))⟩
  others := fun _ _ _ _ => Iff.rfl
  self := fun c bs => ⟨fun hh => h.not_has hu c bs hh, fun hh => hh.elim⟩
  log := rfl
  evs := by rw [List.append_nil]; exact List.Perm.refl _

theorem Made.grow {w w' w'' : World} {e : EcsId} {built : Prop} {P : EcsId → Bytes → Prop} {E : List DropEv} {cm : ComponentMeta}
    (h : Made w w' e built P E cm) (g : Grow w' w'') : Made w w'' e built P E cm := by
  have hnt := newTy_trans h.typ g.typ
  have hle : w'.entities.Live e := (h.live e).2 (Or.inr (Or.inr rfl))
  refine ⟨g.inv, g.ready, fun hn => g.nowrap (h.nowrap hn), ?_, fun x hx => g.known x (h.known x hx), h.fresh, h.unknown, ?_, ?_, fun t id ht => g.typ t id (h.typ t id ht),
    ?_, ?_, fun id i hl => g.look id i (h.look id i hl), ?_, fun c hc => h.tight c (g.tight c hc), fun c => (g.used c).trans (h.used c),
    ?_, fun x hx c bs => (g.has x c bs).trans (h.others x hx c bs), fun c bs => (g.has e c bs).trans (h.self c bs), g.log.trans h.log,
    g.evs.trans h.evs⟩
  · intro x
    rw [g.live, h.live, hnt]
    constructor
    · rintro ((h1 | h1 | h1) | h1)
      · exact Or.inl h1
      · exact Or.inr (Or.inl (Or.inl h1))
      · exact Or.inr (Or.inr h1)
      · exact Or.inr (Or.inl (Or.inr h1))
    · rintro (h1 | (h1 | h1) | h1)
      · exact Or.inl (Or.inl h1)
      · exact Or.inl (Or.inr (Or.inl h1))
      · exact Or.inr h1
      · exact Or.inl (Or.inr (Or.inr h1))
  · intro x hx hk
    rcases (hnt x).1 hx with hx | hx
    · exact h.newUnknown x hx hk
    · exact g.unknown x hx (h.known x hk)
  · rw [hnt]
    rintro (hx | hx)
    · exact h.notType hx
    · exact g.unknown e hx hle.kept
  · intro x hx
    rw [g.comp x ((h.live x).2 (Or.inl hx)), h.comp x hx]
  · intro hb
    rw [g.comp e hle, h.cm hb]
  · obtain ⟨n, hn⟩ := h.locks
    obtain ⟨m, hm⟩ := g.locks
    exact ⟨n + m, by rw [hm, hn, List.append_assoc, List.replicate_append_replicate]⟩
  · intro x
    rw [g.row, h.row, hnt]
    constructor
    · rintro ((h1 | h1 | h1) | h1)
      · exact Or.inl h1
      · exact Or.inr (Or.inl (Or.inl h1))
      · exact Or.inr (Or.inr h1)
      · exact Or.inr (Or.inl (Or.inr h1))
    · rintro (h1 | (h1 | h1) | h1)
      · exact Or.inl (Or.inl h1)
      · exact Or.inl (Or.inr (Or.inl h1))
      · exact Or.inr h1
      · exact Or.inl (Or.inr (Or.inr h1))

theorem Made.build {w w' w'' : World} {e : EcsId} {vals : List (EcsId × Bytes)} {cm : ComponentMeta}
    (h : Made w w' e False (fun _ _ => False) [] cm) (g : Built w' w'' e vals cm) :
    Made w w'' e True (fun c bs => (c, bs) ∈ vals) (valEvs w' vals) cm := by
  have hnt : ∀ x, NewTy w w'' x ↔ NewTy w w' x := by intro x; unfold NewTy; rw [g.typ]
  have hex : ∀ c, (∃ bs, (c, bs) ∈ vals) ↔ c ∈ vals.map Prod.fst := by
    intro c
    constructor
    · rintro ⟨bs, hb⟩; exact List.mem_map_of_mem (f := Prod.fst) hb
    · intro hc
      obtain ⟨p, hp, rfl⟩ := List.mem_map.1 hc
      exact ⟨p.2, hp⟩
  refine ⟨g.inv, by unfold Ready; rw [g.ent, g.typ]; exact h.ready, by rw [g.ent]; exact h.nowrap, ?_, ?_, h.fresh, h.unknown, ?_, ?_, ?_,
    ?_, ?_, fun id i hl => g.look id i (h.look id i hl), ?_, ?_, ?_,
    ?_, fun x hx c bs => (g.others x hx c bs).trans (h.others x hx c bs), g.self, g.log.trans h.log, ?_⟩
  · intro x; rw [g.ent, hnt]; exact h.live x
  · intro x hx; rw [g.ent]; exact h.known x hx
  · intro x; rw [hnt]; exact h.newUnknown x
  · rw [hnt]; exact h.notType
  · intro t id ht; rw [g.typ]; exact h.typ t id ht
  · intro x hx; rw [g.comp, if_neg (h.fresh x hx), h.comp x hx]
  · intro _; rw [g.comp, if_pos rfl]
  · obtain ⟨n, hn⟩ := h.locks
    obtain ⟨m, hm⟩ := g.locks
    exact ⟨n + m, by rw [hm, hn, List.append_assoc, List.replicate_append_replicate]⟩
  · intro c hc
    rw [hex]
    rcases g.tight c hc with hc | hc
    · rcases h.tight c hc with hc | ⟨_, hc⟩
      · exact Or.inl hc
      · exact hc.elim
    · exact Or.inr hc
  · intro c
    rw [hex, g.used, h.used]
    simp
  · intro x
    rw [g.row, h.row, hnt]
    simp [or_assoc]
  · have h1 := h.evs
    rw [List.append_nil] at h1
    exact g.evs.trans (List.Perm.append_right _ h1)

theorem Made.reuse {w w' : World} {e : EcsId} {built : Prop} {P : EcsId → Bytes → Prop} {E : List DropEv} {cm : ComponentMeta}
    (h : Made w w' e built P E cm) (r : Option (List EcsId × Bytes × Nat))
    (hr : ∀ ids d c, r = some (ids, d, c) → ids = [] ∧ (0 < c ∧ d.length = c)) : Made w { w' with reuse := r } e built P E cm :=
  ⟨h.inv.withReuse hr, h.ready, h.nowrap, h.live, h.known, h.fresh, h.unknown, h.newUnknown, h.notType, h.typ, h.comp, h.cm, h.look, h.locks, h.tight,
    h.used, h.row, h.others, h.self, h.log, h.evs⟩

/-- The values supplied by a chain of calls, in order. -/
def ActVals (w : World) : List BAct → List (EcsId × Bytes) → Prop
  | [], vs => vs = []
  | a :: as, vs => ∃ id v vs', vs = (id, v) :: vs' ∧ Gives w a id v ∧ ActVals w as vs'

theorem ActVals.grow {w w' : World} (h : Grow w w') (hi : Inv w) {as : List BAct} {vs : List (EcsId × Bytes)} (ha : ActVals w as vs) :
    ActVals w' as vs := by
  induction as generalizing vs with
  | nil => exact ha
  | cons a as ih =>
    obtain ⟨id, v, vs', h1, h2, h3⟩ := ha
    exact ⟨id, v, vs', h1, h2.grow h hi, ih h3⟩

theorem ActVals.mem {w : World} {as : List BAct} {vs : List (EcsId × Bytes)} (ha : ActVals w as vs) (c : EcsId) (bs : Bytes) :
    (c, bs) ∈ vs ↔ ∃ a ∈ as, Gives w a c bs := by
  induction as generalizing vs with
  | nil => cases ha; simp
  | cons a as ih =>
    obtain ⟨id, v, vs', rfl, h2, h3⟩ := ha
    rw [List.mem_cons, ih h3]
    constructor
    · rintro (h | ⟨a', h, h'⟩)
      · injection h with h4 h5
        subst h4; subst h5
        exact ⟨a, List.mem_cons_self, h2⟩
      · exact ⟨a', List.mem_cons_of_mem _ h, h'⟩
    · rintro ⟨a', h, h'⟩
      rcases List.mem_cons.1 h with rfl | h
      · obtain ⟨h4, h5⟩ := h2.uniq h'
        left; rw [h4, h5]
      · exact Or.inr ⟨a', h, h'⟩

/-- `b'` is `b` with more values. -/
structure ExtAll (b b' : Builder) (vals : List (EcsId × Bytes)) : Prop where
  blk : Builder.Blk b'
  ids : b'.compIds = b.compIds ++ vals.map Prod.fst
  data : b'.data.take b'.len = b.data.take b.len ++ (vals.map Prod.snd).flatten
  entity : b'.entity = b.entity
  cmeta : b'.cmeta = b.cmeta

theorem ExtAll.packed {b b' : Builder} {vals vals' : List (EcsId × Bytes)} (h : ExtAll b b' vals') (hb : Packed b vals) :
    Packed b' (vals ++ vals') :=
  ⟨h.blk.block, h.blk.len, by rw [h.data, hb.data]; simp, by rw [h.ids, hb.ids]; simp⟩

/-- Types not mentioned in the calls keep their registration. -/
def TypOnly (w w' : World) (as : List BAct) : Prop := ∀ t, (∀ v, .with t v ∉ as) → w'.typeMap t = w.typeMap t

theorem CallsOk.tail {w : World} {b : Builder} {a : BAct} {as : List BAct} (h : CallsOk w b (a :: as)) {b1 : Builder} {w1 : World}
    (h1 : b.act a w = .ok b1 w1) : CallsOk w1 b1 as := by
  intro pre x post e b2 w2 h2
  refine h (a :: pre) x post (by rw [e]; rfl) b2 w2 ?_
  show (EStateM.bind (b.act a) (fun b => b.acts pre)) w = _
  unfold EStateM.bind
  rw [h1]
  exact h2

theorem CallsOk.head {w : World} {b : Builder} {a : BAct} {as : List BAct} (h : CallsOk w b (a :: as)) : CallOk w b a :=
  h [] a as rfl b w rfl

theorem acts_append (b : Builder) (as bs : List BAct) (w : World) :
    b.acts (as ++ bs) w = (match b.acts as w with | .ok b1 w1 => b1.acts bs w1 | .error f w1 => .error f w1) := by
  induction as generalizing b w with
  | nil => rfl
  | cons a as ih =>
    show (EStateM.bind (b.act a) (fun b => b.acts (as ++ bs))) w =
      (match (EStateM.bind (b.act a) (fun b => b.acts as)) w with | .ok b1 w1 => b1.acts bs w1 | .error f w1 => .error f w1)
    unfold EStateM.bind
    cases b.act a w with
    | ok b1 w1 => exact ih b1 w1
    | error f w1 => rfl

theorem acts_seq (b : Builder) (as bs : List BAct) : b.acts (as ++ bs) = (b.acts as >>= fun b1 => b1.acts bs) := by
  funext w
  rw [acts_append]
  show _ = EStateM.bind (b.acts as) (fun b1 => b1.acts bs) w
  unfold EStateM.bind
  cases b.acts as w <;> rfl

theorem CallsOk.append {w : World} {b : Builder} {as bs : List BAct} (h : CallsOk w b (as ++ bs)) :
    CallsOk w b as ∧ ∀ b1 w1, b.acts as w = .ok b1 w1 → CallsOk w1 b1 bs := by
  constructor
  · intro pre a post e b1 w1 h1
    exact h pre a (post ++ bs) (by rw [e]; simp) b1 w1 h1
  · intro b1 w1 h1 pre a post e b2 w2 h2
    refine h (as ++ pre) a post (by rw [e]; simp) b2 w2 ?_
    rw [acts_append, h1]
    exact h2

/-- A chain of `with..` calls (before `build`, or after it). -/
theorem acts_spec (as : List BAct) : ∀ {w : World} (_ : Inv w) (_ : w.Ready) {b : Builder} (_ : Builder.Blk b)
    (_ : CallsOk w b as) (_ : w.Row b.entity ∨ .build ∉ as),
    Tri (b.acts as) w
      (fun b' w' => Grow w w' ∧ TypOnly w w' as ∧ ∃ vals, ActVals w' as vals ∧ ExtAll b b' vals ∧ ValsOk w' vals)
      (fun f w' => Grow w w' ∧ TypOnly w w' as ∧
        ∃ pre a post b1 w1, as = pre ++ a :: post ∧ b.acts pre w = .ok b1 w1 ∧ Refused w1 b1 a f ∧ (∃ w2, b1.act a w1 = .error f w2) ∧
          Inv w1 ∧ w1.Ready ∧ Builder.Blk b1) := by
  induction as with
  | nil =>
    intro w h hn b hb _ _
    exact ⟨Grow.refl h hn, fun _ _ => rfl, [], rfl, ⟨hb, by simp, by simp, rfl, rfl⟩, by intro p hp; cases hp⟩
  | cons a as ih =>
    intro w h hn b hb hc hr
    have hnb : a ≠ .build := by
      rintro rfl
      rcases hr with hr | hr
      · exact hc.head.1 hr
      · exact hr List.mem_cons_self
    have ha := act_spec h hn hb hc.head hnb
    have heq : ∀ (l : List BAct), b.acts (a :: l) = (b.act a >>= fun b => b.acts l) := fun _ => rfl
    rw [heq, tri_bind]
    unfold Tri at ha ⊢
    cases hx : b.act a w with
    | error f w1 =>
      rw [hx] at ha
      obtain ⟨a1, a2, a3⟩ := ha
      refine ⟨a1, ?_, [], a, as, b, w, rfl, rfl, a3, ⟨w1, hx⟩, h, hn, hb⟩
      intro t ht
      exact a2 t (fun v hv => ht v (by rw [hv]; exact List.mem_cons_self))
    | ok b1 w1 =>
      rw [hx] at ha
      obtain ⟨g, a2, id, v, m, gv, ext, inf, hlen⟩ := ha
      simp only
      have hr1 : w1.Row b1.entity ∨ .build ∉ as := by
        rcases hr with hr | hr
        · left; rw [ext.entity, g.row]; exact Or.inl hr
        · right; exact fun hh => hr (List.mem_cons_of_mem _ hh)
      refine (ih g.inv g.ready ext.blk (hc.tail hx) hr1).imp ?_ ?_
      · rintro b2 w2 ⟨g2, t2, vals, v1, v2, v3⟩
        refine ⟨g.trans g2, ?_, (id, v) :: vals, ⟨id, v, vals, rfl, gv.grow g2 g.inv, v1⟩, ?_, ?_⟩
        · intro t ht
          rw [t2 t (fun v hv => ht v (List.mem_cons_of_mem _ hv)), a2 t (fun v hv => ht v (by rw [hv]; exact List.mem_cons_self))]
        · refine ⟨v2.blk, ?_, ?_, v2.entity.trans ext.entity, v2.cmeta.trans ext.cmeta⟩
          · rw [v2.ids, ext.ids]; simp
          · rw [v2.data, ext.data]; simp
        · rw [valsOk_iff] at v3 ⊢
          intro p hp
          rcases List.mem_cons.1 hp with rfl | hp
          · exact ⟨m, g2.info g.inv inf, hlen⟩
          · exact v3 p hp
      · rintro f w2 ⟨g2, t2, pre, x, post, b3, w3, e, e1, e2⟩
        refine ⟨g.trans g2, ?_, a :: pre, x, post, b3, w3, by rw [e]; rfl, ?_, e2⟩
        · intro t ht
          rw [t2 t (fun v hv => ht v (List.mem_cons_of_mem _ hv)), a2 t (fun v hv => ht v (by rw [hv]; exact List.mem_cons_self))]
        · show (EStateM.bind (b.act a) (fun b => b.acts pre)) w = _
          unfold EStateM.bind
          rw [hx]
          exact e1

/-- The component metadata of the entity that is spawned. -/
def SpawnKind.cmeta : SpawnKind → ComponentMeta
  | .withMeta m => m
  | _ => ComponentMeta.unit

theorem mkBuilder_spec {w : World} (h : Inv w) (kind : SpawnKind) (e : EcsId) :
    Tri (mkBuilder kind e) w
      (fun b w' => ∃ r, w' = { w with reuse := r } ∧ Packed b [] ∧ b.entity = e ∧ b.cmeta = kind.cmeta ∧
        ∀ ids d c, r = some (ids, d, c) → ids = [] ∧ (0 < c ∧ d.length = c))
      (fun f w' => w' = w ∧ f = .layoutErr ∧ ∃ n, kind = .capacity n ∧ layoutOk n 0 = false) := by
  have hnew : ∀ cm, Tri (Builder.new e cm) w
      (fun b w' => ∃ r, w' = { w with reuse := r } ∧ Packed b [] ∧ b.entity = e ∧ b.cmeta = cm ∧
        ∀ ids d c, r = some (ids, d, c) → ids = [] ∧ (0 < c ∧ d.length = c))
      (fun f w' => w' = w ∧ f = .layoutErr ∧ ∃ n, kind = .capacity n ∧ layoutOk n 0 = false) := by
    intro cm
    obtain ⟨b, r, b1, b2, b3, b4, b5⟩ := Builder.new_spec e cm h
    unfold Tri
    rw [b1]
    exact ⟨r, rfl, b2, b3, b4, b5⟩
  cases kind with
  | plain => exact hnew _
  | withMeta m => exact hnew _
  | capacity n =>
    have heq : mkBuilder (.capacity n) e = Builder.withCapacity e ComponentMeta.unit n := rfl
    unfold Tri
    rw [heq]
    cases hr : w.reuse with
    | some x =>
      obtain ⟨ids, d, c⟩ := x
      obtain ⟨h1, h2⟩ := h.reuse _ _ _ hr
      have : Builder.withCapacity e ComponentMeta.unit n w =
          .ok ⟨d, c, 0, ids, e, ComponentMeta.unit, 0⟩ { w with reuse := none } := by
        unfold Builder.withCapacity; rw [hr]
      rw [this]
      exact ⟨none, rfl, ⟨h2.2, Nat.zero_le _, by simp, by simp [h1]⟩, rfl, rfl, by intro _ _ _ hh; cases hh⟩
    | none =>
      by_cases h0 : n = 0
      · have : Builder.withCapacity e ComponentMeta.unit n w = .ok ⟨[], 0, 0, [], e, ComponentMeta.unit, 0⟩ w := by
          unfold Builder.withCapacity; rw [hr]; simp only [if_pos h0]
        rw [this]
        exact ⟨w.reuse, rfl, ⟨rfl, Nat.le_refl _, rfl, rfl⟩, rfl, rfl, h.reuse⟩
      · cases hl : layoutOk n 0 with
        | true =>
          have : Builder.withCapacity e ComponentMeta.unit n w =
              .ok ⟨List.replicate n none, n, 0, [], e, ComponentMeta.unit, 0⟩ w := by
            unfold Builder.withCapacity; rw [hr]; simp only [if_neg h0, hl, if_true]
          rw [this]
          exact ⟨w.reuse, rfl, ⟨by simp, Nat.zero_le _, by simp, rfl⟩, rfl, rfl, h.reuse⟩
        | false =>
          have : Builder.withCapacity e ComponentMeta.unit n w = .error .layoutErr w := by
            unfold Builder.withCapacity; rw [hr]; simp only [if_neg h0, hl, Bool.false_eq_true, if_false]
          rw [this]
          exact ⟨rfl, rfl, n, rfl, hl⟩

theorem spawnWith_eq (kind : SpawnKind) (as : List BAct) : spawnWith kind as = (do
    let entity ← spawnId
    let b ← mkBuilder kind entity
    let b ← b.acts as
    b.drop
    return entity) := by
  unfold spawnWith mkBuilder
  cases kind <;> rfl

/-- The outcome of a chain of calls for entity `e`: in a table with the values given before `build`, or in no table. -/
structure Outcome (w w' : World) (e : EcsId) (cm : ComponentMeta) (as : List BAct) : Prop where
  typ : TypOnly w w' as
  made : (.build ∉ as ∧ Made w w' e False (fun _ _ => False) [] cm) ∨
    (∃ pre post vals, as = pre ++ .build :: post ∧ .build ∉ pre ∧ ActVals w' pre vals ∧ ValsOk w' vals ∧ (vals.map Prod.fst).Nodup ∧
      Made w w' e True (fun c bs => (c, bs) ∈ vals) (valEvs w' vals) cm)

/-- What a failed chain leaves behind. -/
structure Failed (w w' : World) (kind : SpawnKind) (as : List BAct) (f : Fault) : Prop where
  typ : TypOnly w w' as
  made : (f = .outOfIds ∧ 2 ^ 32 ≤ w.entities.generations.length ∧ Grow w w' ∧ spawnId w = .error f w') ∨
    (∃ e, f = .layoutErr ∧ (∃ n, kind = .capacity n ∧ layoutOk n 0 = false) ∧ Made w w' e False (fun _ _ => False) [] kind.cmeta) ∨
    (∃ e w1 b w2 pre a post b1 w3, spawnId w = .ok e w1 ∧ mkBuilder kind e w1 = .ok b w2 ∧ as = pre ++ a :: post ∧
      b.acts pre w2 = .ok b1 w3 ∧ (Refused w3 b1 a f ∧ (∃ w4, b1.act a w3 = .error f w4) ∧ Inv w3 ∧ w3.Ready ∧ Builder.Blk b1) ∧
      ((.build ∉ pre ∧ Made w w' e False (fun _ _ => False) [] kind.cmeta) ∨
      ∃ pre' post' vals, pre = pre' ++ .build :: post' ∧ .build ∉ pre' ∧ ActVals w' pre' vals ∧ ValsOk w' vals ∧ (vals.map Prod.fst).Nodup ∧
        Made w w' e True (fun c bs => (c, bs) ∈ vals) (valEvs w' vals) kind.cmeta))

theorem first_split {α : Type} (x : α) (l : List α) : x ∉ l ∨ ∃ pre post, l = pre ++ x :: post ∧ x ∉ pre := by
  induction l with
  | nil => left; simp
  | cons y ys ih =>
    by_cases hy : y = x
    · subst hy; right; exact ⟨[], ys, rfl, by simp⟩
    · rcases ih with ih | ⟨pre, post, h1, h2⟩
      · left
        intro hh
        rcases List.mem_cons.1 hh with e | e
        · exact hy e.symm
        · exact ih e
      · right
        refine ⟨y :: pre, post, by rw [h1]; rfl, ?_⟩
        intro hh
        rcases List.mem_cons.1 hh with e | e
        · exact hy e.symm
        · exact h2 e

theorem tri_of {α : Type} {x : M α} {w : World} {Q : α → World → Prop} {E : Fault → World → Prop}
    (hok : ∀ a w', x w = .ok a w' → Q a w') (herr : ∀ f w', x w = .error f w' → E f w') : Tri x w Q E := by
  unfold Tri
  cases hx : x w with
  | ok a w' => exact hok a w' hx
  | error f w' => exact herr f w' hx

theorem _root_.Ellecs.Tri.with_eq {α : Type} {x : M α} {w : World} {Q : α → World → Prop} {E : Fault → World → Prop} (h : Tri x w Q E) :
    Tri x w (fun a w' => x w = .ok a w' ∧ Q a w') (fun f w' => x w = .error f w' ∧ E f w') :=
  tri_of (fun _ _ hx => ⟨hx, h.ok hx⟩) (fun _ _ hx => ⟨hx, h.error hx⟩)

theorem ValsOk.grow {w w' : World} (h : Grow w w') (hi : Inv w) {vals : List (EcsId × Bytes)} (hv : ValsOk w vals) : ValsOk w' vals := by
  rw [valsOk_iff] at *
  intro p hp
  obtain ⟨m, h1, h2⟩ := hv p hp
  exact ⟨m, h.info hi h1, h2⟩

theorem valEvs_grow {w w' : World} (h : Grow w w') (hi : Inv w) {vals : List (EcsId × Bytes)} (hv : ValsOk w vals) :
    valEvs w' vals = valEvs w vals := by
  refine valEvs_congr ?_
  intro p hp
  obtain ⟨_, _, _, _, _, hl, _⟩ := hv.info hi hp
  exact h.comp p.1 hl

theorem Built.info {w w' : World} {e : EcsId} {vals : List (EcsId × Bytes)} {cm : ComponentMeta} (h : Built w w' e vals cm)
    (hi : Inv w) (hl : w.entities.Live e) (hr : ¬ w.Row e) {c : EcsId} {m : ComponentMeta} (hc : w.InfoIs c m) : w'.InfoIs c m := by
  rw [infoIs_iff hi] at hc
  have hne : c.uindex ≠ e.uindex := by
    intro hh
    have := (hi.row_live hc.1).uniq hl hh
    subst this
    exact hr hc.1
  rw [infoIs_iff h.inv, h.row, h.comp, if_neg hne]
  exact ⟨Or.inl hc.1, hc.2⟩

theorem Built.gives {w w' : World} {e : EcsId} {vals : List (EcsId × Bytes)} {cm : ComponentMeta} (h : Built w w' e vals cm)
    (hi : Inv w) (hl : w.entities.Live e) (hr : ¬ w.Row e) {a : BAct} {c : EcsId} {bs : Bytes} (hg : Gives w a c bs) :
    Gives w' a c bs := by
  cases a with
  | «with» t v => exact ⟨by rw [h.typ]; exact hg.1, hg.2⟩
  | withDynamic id => exact hg
  | withDynamicWithData id v =>
    obtain ⟨h1, m, h2, h3⟩ := hg
    exact ⟨h1, m, h.info hi hl hr h2, h3⟩
  | build => exact hg

theorem ActVals.congr {w w' : World} (h : ∀ a c bs, Gives w a c bs → Gives w' a c bs) {as : List BAct} {vs : List (EcsId × Bytes)}
    (ha : ActVals w as vs) : ActVals w' as vs := by
  induction as generalizing vs with
  | nil => exact ha
  | cons a as ih =>
    obtain ⟨id, v, vs', h1, h2, h3⟩ := ha
    exact ⟨id, v, vs', h1, h _ _ _ h2, ih h3⟩

/-- What a chain of calls that starts with `spawn` does. -/
theorem spawnWith_spec {w : World} (h : Inv w) (hn : w.Ready) {kind : SpawnKind} {as : List BAct} (hc : ChainOk w kind as) :
    Tri (spawnWith kind as) w
      (fun e w' => Outcome w w' e kind.cmeta as)
      (fun f w' => Failed w w' kind as f ∨
        (Limit f ∧ .build ∈ as ∧ ¬ (w.Roomy ∧ ∀ t v, .with t v ∈ as → t.size * 4 < isizeMax))) := by
  rw [spawnWith_eq, tri_bind]
  refine (spawnId_spec h hn).with_eq.imp ?_ ?_
  · rintro e w1 ⟨x1, s', rfl, i1, n1, l1, f1, k1, u1, m1⟩
    rw [tri_bind]
    refine (mkBuilder_spec i1 kind e).with_eq.imp ?_ ?_
    · rintro b w2 ⟨x2, r, rfl, p1, p2, p3, p4⟩
      have hcalls := hc e _ b _ x1 x2
      have i2 : Inv { w with entities := s', reuse := r } := i1.withReuse p4
      have hm0 : Made w { w with entities := s', reuse := r } e False (fun _ _ => False) [] kind.cmeta :=
        Made.ofSpawn kind.cmeta h i2 n1 l1 f1 k1 u1
      have hle : s'.Live e := (l1 e).2 (Or.inr rfl)
      have hnr : ¬ World.Row { w with entities := s', reuse := r } e := (i2.inst_none hle).1 m1
      have hb0 : BOk { w with entities := s', reuse := r } b [] :=
        ⟨p1, (by intro p hp; cases hp), by rw [p2]; exact hle, by rw [p2]; exact hnr⟩
      have hty0 : ∀ t, World.typeMap { w with entities := s', reuse := r } t = w.typeMap t := fun _ => rfl
      have hroom : w.Roomy → World.Roomy { w with entities := s', reuse := r } := fun hr => hr
      generalize hw2 : ({ w with entities := s', reuse := r } : World) = w2 at *
      rw [tri_bind]
      have fin : ∀ (b' : Builder) (w' : World), Builder.Blk b' → Inv w' →
          (∀ r, (∀ ids d c, r = some (ids, d, c) → ids = [] ∧ (0 < c ∧ d.length = c)) → Outcome w { w' with reuse := r } e kind.cmeta as) →
          Tri (do b'.drop; return e) w' (fun e w' => Outcome w w' e kind.cmeta as)
            (fun f w' => Failed w w' kind as f ∨
        (Limit f ∧ .build ∈ as ∧ ¬ (w.Roomy ∧ ∀ t v, .with t v ∈ as → t.size * 4 < isizeMax))) := by
        intro b' w' hb' hi' ho
        obtain ⟨r, d1, d2⟩ := Builder.drop_spec hb' hi'
        rw [tri_bind]
        unfold Tri
        rw [d1]
        exact ho r d2
      rcases first_split BAct.build as with hnb | ⟨pre, post, rfl, hpre⟩
      · refine (acts_spec as i2 (by rw [← hw2]; exact n1.1) p1.blk hcalls (Or.inr hnb)).imp ?_ ?_
        · rintro b3 w3 ⟨g, t3, vals, v1, v2, v3⟩
          refine fin b3 w3 v2.blk g.inv ?_
          intro r' hr'
          exact ⟨fun t ht => (t3 t ht).trans (hty0 t), Or.inl ⟨hnb, (hm0.grow g).reuse r' hr'⟩⟩
        · rintro f w3 ⟨g, t3, pre, a, post, b1, w4, e1, e2, e3⟩
          left
          refine ⟨fun t ht => (t3 t ht).trans (hty0 t), Or.inr (Or.inr ⟨e, _, b, w2, pre, a, post, b1, w4, x1, x2, e1, e2, e3, Or.inl ⟨?_, hm0.grow g⟩⟩)⟩
          intro hh; exact hnb (by rw [e1]; exact List.mem_append_left _ hh)
      · obtain ⟨c1, c2⟩ := hcalls.append
        rw [acts_seq, tri_bind]
        refine (acts_spec pre i2 (by rw [← hw2]; exact n1.1) p1.blk c1 (Or.inr hpre)).with_eq.imp ?_ ?_
        · rintro b3 w3 ⟨x3, g, t3, vals, v1, v2, v3⟩
          have hc3 := c2 b3 w3 x3
          have hb3 : BOk w3 b3 vals := by
            have := hb0.grow g i2
            refine ⟨v2.packed p1, v3, ?_, ?_⟩
            · rw [v2.entity]; exact this.live
            · rw [v2.entity]; exact this.unbuilt
          have he3 : b3.entity = e := v2.entity.trans p2
          have hcm3 : b3.cmeta = kind.cmeta := v2.cmeta.trans p3
          have hnd := hc3.head.2
          have heq : b3.acts (.build :: post) = (b3.act .build >>= fun b => b.acts post) := rfl
          rw [heq, tri_bind]
          refine (act_build_spec g.inv hb3 hnd).with_eq.imp ?_ ?_
          · rintro b4 w4 ⟨x4, k1, k2, hB⟩
            rw [he3, hcm3] at hB
            have hm4 := (hm0.grow g).build hB
            have hl3 : w3.entities.Live e := by rw [← he3]; exact hb3.live
            have hr3 : ¬ w3.Row e := by rw [← he3]; exact hb3.unbuilt
            have hv4 : ValsOk w4 vals := by
              rw [valsOk_iff]
              intro p hp
              obtain ⟨m, q1, q2⟩ := valsOk_iff.1 v3 p hp
              exact ⟨m, hB.info g.inv hl3 hr3 q1, q2⟩
            have hve4 : valEvs w4 vals = valEvs w3 vals := by
              refine valEvs_congr ?_
              intro p hp
              obtain ⟨m, q1, q2⟩ := valsOk_iff.1 v3 p hp
              have a1 := ((infoIs_iff g.inv).1 q1).2
              have a2 := ((infoIs_iff hB.inv).1 (hB.info g.inv hl3 hr3 q1)).2
              rw [a1, a2]
            have ha4 : ActVals w4 pre vals := v1.congr (fun a c bs hg => hB.gives g.inv hl3 hr3 hg)
            have hnw4 : w4.Ready := by unfold Ready; rw [hB.ent, hB.typ]; exact g.ready
            have hty4 : ∀ t, w4.typeMap t = w3.typeMap t := fun t => by rw [hB.typ]
            have hids : (vals.map Prod.fst).Nodup := by rw [← hb3.packed.ids]; exact hnd
            refine (acts_spec post hB.inv hnw4 k1 (hc3.tail x4) (Or.inl (by rw [k2, he3, hB.row]; exact Or.inr rfl))).imp ?_ ?_
            · rintro b5 w5 ⟨g5, t5, vals5, v5, v6, v7⟩
              refine fin b5 w5 v6.blk g5.inv ?_
              intro r' hr'
              refine ⟨?_, Or.inr ⟨pre, post, vals, rfl, hpre, ?_, ?_, hids, ?_⟩⟩
              · intro t ht
                show w5.typeMap t = _
                rw [t5 t (fun v hv => ht v (List.mem_append_right _ (List.mem_cons_of_mem _ hv))), hty4,
                  t3 t (fun v hv => ht v (List.mem_append_left _ hv)), hty0]
              · exact (ha4.grow g5 hB.inv).congr (fun a c bs hg => by cases a <;> exact hg)
              · exact hv4.grow g5 hB.inv
              · have := (hm4.grow g5).reuse r' hr'
                have e1 : valEvs { w5 with reuse := r' } vals = valEvs w3 vals := (valEvs_grow g5 hB.inv hv4).trans hve4
                rw [e1]
                exact this
            · rintro f w5 ⟨g5, t5, pre5, a, post5, b6, w6, e1, e2, e3⟩
              left
              refine ⟨?_, Or.inr (Or.inr ⟨e, _, b, w2, pre ++ .build :: pre5, a, post5, b6, w6, x1, x2, ?_, ?_, e3,
                Or.inr ⟨pre, pre5, vals, rfl, hpre, ha4.grow g5 hB.inv, hv4.grow g5 hB.inv, hids, ?_⟩⟩)⟩
              · intro t ht
                rw [t5 t (fun v hv => ht v (List.mem_append_right _ (List.mem_cons_of_mem _ hv))), hty4,
                  t3 t (fun v hv => ht v (List.mem_append_left _ hv)), hty0]
              · rw [e1]; simp
              · rw [acts_append, x3]
                show (EStateM.bind (b3.act .build) (fun b => b.acts pre5)) w3 = _
                unfold EStateM.bind
                rw [x4]
                exact e2
              · rw [(valEvs_grow g5 hB.inv hv4).trans hve4]
                exact hm4.grow g5
          · rintro f w4 ⟨x4, q1, q2, q3⟩
            refine Or.inr ⟨q2, by simp, ?_⟩
            rintro ⟨hr, hs⟩
            refine q3 (g.roomy ?_ (hroom hr))
            intro t ht1 ht2
            apply Classical.byContradiction
            intro hbig
            refine ht2 ((t3 t ?_).trans ht1)
            intro v hv
            exact hbig (hs t v (List.mem_append_left _ hv))
        · rintro f w3 ⟨x3, g, t3, pre', a, post', b1, w4, e1, e2, e3⟩
          left
          refine ⟨?_, Or.inr (Or.inr ⟨e, _, b, w2, pre', a, post' ++ .build :: post, b1, w4, x1, x2, by rw [e1]; simp, e2, e3,
            Or.inl ⟨?_, hm0.grow g⟩⟩)⟩
          · intro t ht
            rw [t3 t (fun v hv => ht v (List.mem_append_left _ hv)), hty0]
          · intro hh; exact hpre (by rw [e1]; exact List.mem_append_left _ hh)
    · rintro f w2 ⟨x2, rfl, rfl, n, rfl, hl⟩
      left
      refine ⟨fun t _ => rfl, Or.inr (Or.inl ⟨e, rfl, ⟨n, rfl, hl⟩, ?_⟩)⟩
      exact Made.ofSpawn _ h i1 n1 l1 f1 k1 u1
  · rintro f w1 ⟨x1, rfl, q1, s', rfl, q2, q3, q4, q5⟩
    left
    exact ⟨fun t _ => rfl, Or.inl ⟨rfl, q1, Grow.ofEntities q2 q3 q4 q5, x1⟩⟩

end World
end Ellecs
