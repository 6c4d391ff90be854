import Verif.Proofs.DemoFacts
import Verif.Proofs.DupExact
import Verif.Proofs.Demo
/-!
# C06, C24, C25, C27, C28, C29: building entities

`spawnWith kind (as ++ [.build])` is `world.spawn()` (or one of its variants) followed by the calls `as` and `.build()`.
-/
namespace Ellecs.WorldSpec
open World Demo

/-! ## C06 -/

/-- C06: if a chain of valid calls with distinct components returns, it returns a fresh live id that has exactly the
supplied components with exactly the supplied bytes.  Every other entity has the components and values it had; the
only other new entities are the component entities of types used for the first time; nothing is dropped. -/
theorem C06_build_exact {w : World} (hw : Reachable w) {kind : SpawnKind} {as : List BAct} (hv : ∀ a ∈ as, ActValid w a)
    (hd : Distinct w as) {e : EcsId} {w' : World} (hr : spawnWith kind (as ++ [.build]) w = .ok e w') :
    (¬ w.Alive e ∧ ¬ w.entities.Known e) ∧ w'.Alive e ∧ w'.Row e ∧
    (∀ c bs, w'.Has e c bs ↔ ∃ a ∈ as, Gives w' a c bs) ∧ (∀ a ∈ as, ∃ c bs, Gives w' a c bs) ∧
    (∀ x, x ≠ e → ∀ c bs, w'.Has x c bs ↔ w.Has x c bs) ∧
    (∀ x, w'.Row x ↔ w.Row x ∨ NewTy w w' x ∨ x = e) ∧ (∀ x, w'.Alive x ↔ w.Alive x ∨ NewTy w w' x ∨ x = e) ∧
    (∀ t id, w.typeMap t = some id → w'.typeMap t = some id) ∧ (∀ t, (∀ v, .with t v ∉ as) → w'.typeMap t = w.typeMap t) ∧
    w'.log = w.log := by
  have hs := hw.sound
  have hnb : .build ∉ as := fun hb => (hv _ hb).ne rfl
  have ho := (spawnWith_spec hs.inv hs.nowrap.ready (chainOk_valid hs.inv hs.nowrap.ready (kind := kind) hv hd)).ok hr
  obtain ⟨vals, v1, v2, v3, hm⟩ := outcome_build hnb ho
  have hself : ∀ c bs, w'.Has e c bs ↔ ∃ a ∈ as, Gives w' a c bs := fun c bs => by rw [hm.self, v1.mem]
  have hgives : ∀ a ∈ as, ∃ c bs, Gives w' a c bs := by
    clear ho hr hv hd hnb hself hm v2 v3
    induction as generalizing vals with
    | nil => intro a ha; cases ha
    | cons x as ih =>
      obtain ⟨id, v, vs', _, q1, q2⟩ := v1
      intro a ha
      rcases List.mem_cons.1 ha with rfl | ha
      · exact ⟨id, v, q1⟩
      · exact ih _ q2 a ha
  refine ⟨⟨fun ha => hm.unknown (alive_iff.1 ha).kept, fun hk => hm.unknown (hk.kept hs.nowrap)⟩, alive_iff.2 ((hm.live e).2 (Or.inr (Or.inr rfl))),
    (hm.row e).2 (Or.inr (Or.inr ⟨trivial, rfl⟩)), hself, hgives, hm.others, ?_, ?_, hm.typ, ?_, hm.log⟩
  · intro x; rw [hm.row]; simp
  · intro x; rw [alive_iff, alive_iff, hm.live]
  · intro t ht
    refine ho.typ t ?_
    intro v hh
    rcases List.mem_append.1 hh with hh | hh
    · exact ht v hh
    · simp at hh

example := C06_build_exact demo_reachable (kind := .capacity 3) (as := [.with tB (val 8 9), .with tC (val 2 1), .withDynamic (ent 3)]) (by decide +kernel) (by decide +kernel) (e := ⟨1, 5⟩) (eq_of_endsOk (by decide +kernel))

/-- C06: the chain returns unless it runs out of ids or memory. -/
theorem C06_build_succeeds {w : World} (hw : Reachable w) {kind : SpawnKind} {as : List BAct} (hv : ∀ a ∈ as, ActValid w a)
    (hd : Distinct w as) (hf : Fits w kind as) : ∃ e w', spawnWith kind (as ++ [.build]) w = .ok e w' :=
  chain_succeeds hw.sound.inv hw.sound.nowrap.ready hv hd hf

/-- C06: a component of an entity has one value. -/
theorem C06_one_value {w : World} (hw : Reachable w) {e c : EcsId} {bs bs' : Bytes} (h1 : w.Has e c bs) (h2 : w.Has e c bs') :
    bs = bs' := has_uniq hw.sound.inv h1 h2

example := C06_one_value demo_reachable (e := ent 6) (c := ent 2) (bs := val 8 8) (bs' := val 8 8) (by decide +kernel) (by decide +kernel)

/-- C06 is not vacuous: a typed component, a new type, a dynamic one with data and a zero sized one, on a world with
entities (and a recycled id). -/
example : ∃ e w', spawnWith (.capacity 3) ([.with tB (val 8 9), .with tC (val 2 1), .withDynamicWithData (ent 1) (val 7 2),
      .withDynamic (ent 3)] ++ [.build]) demo = .ok e w' ∧ Reachable demo ∧
    (∀ a ∈ [BAct.with tB (val 8 9), .with tC (val 2 1), .withDynamicWithData (ent 1) (val 7 2), .withDynamic (ent 3)], ActValid demo a) ∧
    Distinct demo [BAct.with tB (val 8 9), .with tC (val 2 1), .withDynamicWithData (ent 1) (val 7 2), .withDynamic (ent 3)] := by
  have hv : ∀ a ∈ [BAct.with tB (val 8 9), .with tC (val 2 1), .withDynamicWithData (ent 1) (val 7 2), .withDynamic (ent 3)],
      ActValid demo a := by decide +kernel
  have hd : Distinct demo [BAct.with tB (val 8 9), .with tC (val 2 1), .withDynamicWithData (ent 1) (val 7 2), .withDynamic (ent 3)] := by
    decide +kernel
  obtain ⟨e, w', h⟩ := C06_build_succeeds demo_reachable hv hd (kind := .capacity 3)
    ⟨by decide +kernel, by decide +kernel, (by intro n hn; cases hn; decide +kernel), by decide +kernel, by
      intro t v hm
      simp only [List.mem_cons, List.not_mem_nil, or_false] at hm
      rcases hm with hm | hm | hm | hm <;> cases hm <;> decide +kernel⟩
  exact ⟨e, w', h, demo_reachable, hv, hd⟩

/-! ## C24, C29 -/

theorem alike_aux {w w1 w2 : World} {e : EcsId} {as bs : List BAct} {cm1 cm2 : ComponentMeta} (hcm : cm1 = cm2)
    {va vb : List (EcsId × Bytes)} (hi : Inv w) (hv : ∀ a ∈ as, ActValid w a) (hp : ∀ a, a ∈ as ↔ a ∈ bs)
    (m1 : Made w w1 e True (fun c v => (c, v) ∈ va) (valEvs w1 va) cm1) (a1 : ActVals w1 as va)
    (m2 : Made w w2 e True (fun c v => (c, v) ∈ vb) (valEvs w2 vb) cm2) (a2 : ActVals w2 bs vb)
    (t1 : ∀ t, (∀ v, .with t v ∉ as) → w1.typeMap t = w.typeMap t) (t2 : ∀ t, (∀ v, .with t v ∉ bs) → w2.typeMap t = w.typeMap t)
    (g1 : ∀ a ∈ as, ∃ c v, Gives w1 a c v) (g2 : ∀ a ∈ bs, ∃ c v, Gives w2 a c v) : AlikeFor w w1 w2 e := by
  subst hcm
  have s1 : ∀ c v, w1.Has e c v ↔ ∃ a ∈ as, Gives w1 a c v := fun c v => by rw [m1.self, a1.mem]
  have s2 : ∀ c v, w2.Has e c v ↔ ∃ a ∈ bs, Gives w2 a c v := fun c v => by rw [m2.self, a2.mem]
  have hinf : ∀ {u : World} {E : List DropEv} {P : EcsId → Bytes → Prop} (_ : Made w u e True P E cm1) (c : EcsId) (m : ComponentMeta), w.Alive c →
      w.InfoIs c m → u.InfoIs c m := by
    intro u E P mu c m hc hm
    rw [infoIs_iff hi] at hm
    rw [infoIs_iff mu.inv, mu.row, mu.comp c (alive_iff.1 hc)]
    exact ⟨Or.inl hm.1, hm.2⟩
  have hlive : ∀ a ∈ as, ∀ id v, a = .withDynamic id ∨ a = .withDynamicWithData id v → w.Alive id ∧ ∃ m, w.InfoIs id m := by
    intro a ha id v h
    have := hv a ha
    rcases h with rfl | rfl
    · obtain ⟨m, hm, _⟩ := this
      exact ⟨alive_iff.2 (hi.row_live ((infoIs_iff hi).1 hm).1), m, hm⟩
    · obtain ⟨m, hm, _⟩ := this
      exact ⟨alive_iff.2 (hi.row_live ((infoIs_iff hi).1 hm).1), m, hm⟩
  have hold : ∀ {u u' : World} {E E' : List DropEv} {P P' : EcsId → Bytes → Prop} (_ : Made w u e True P E cm1)
      (_ : Made w u' e True P' E' cm1) (c : EcsId) (v : Bytes), w.Alive c → ∀ a ∈ as, Gives u a c v → Gives u' a c v := by
    intro u u' E E' P P' mu mu' c v hc a ha hg
    cases a with
    | «with» t x =>
      refine ⟨?_, hg.2⟩
      have h1 : u.typeMap t = some c := hg.1
      cases ht : w.typeMap t with
      | none => exact absurd (alive_iff.1 hc).kept (mu.newUnknown c ⟨t, ht, h1⟩)
      | some c' =>
        have h2 := mu.typ t c' ht
        rw [h1] at h2; injection h2 with h2; subst h2
        exact mu'.typ t c ht
    | withDynamic id => exact hg
    | withDynamicWithData id x =>
      obtain ⟨rfl, m, h2, h3⟩ := hg
      obtain ⟨k1, m0, k2⟩ := hlive _ ha c x (Or.inr rfl)
      have := (hinf mu c m0 k1 k2).uniq h2
      subst this
      exact ⟨rfl, m0, hinf mu' c m0 k1 k2, h3⟩
    | build => exact hg.elim
  have hall : ∀ {u : World} (a : BAct) (_ : a ∈ as) (c : EcsId) (v : Bytes), Gives u a c v → w.Alive c ∨ ∃ t, u.typeMap t = some c := by
    intro u a ha c v hg
    cases a with
    | «with» t x => exact Or.inr ⟨t, hg.1⟩
    | withDynamic id => rw [hg.1]; exact Or.inl (hlive _ ha id [] (Or.inl rfl)).1
    | withDynamicWithData id x => rw [hg.1]; exact Or.inl (hlive _ ha id x (Or.inr rfl)).1
    | build => exact hg.elim
  have htyp : ∀ {u u' : World} {E E' : List DropEv} {P P' : EcsId → Bytes → Prop} (_ : Made w u e True P E cm1)
      (_ : Made w u' e True P' E' cm1) (_ : ∀ t, (∀ v, .with t v ∉ as) → u.typeMap t = w.typeMap t)
      (_ : ∀ a ∈ as, ∃ c v, Gives u' a c v) (t : Ty) (v : Bytes) (c : EcsId), u.typeMap t = some c → (∃ a ∈ as, Gives u a c v) →
      ∃ c', u'.typeMap t = some c' ∧ ∃ a ∈ as, Gives u' a c' v := by
    intro u u' E E' P P' mu mu' tu gu' t v c hc ⟨a, ha, hg⟩
    by_cases hcl : w.Alive c
    · refine ⟨c, ?_, a, ha, hold mu mu' c v hcl a ha hg⟩
      cases ht : w.typeMap t with
      | none => exact absurd (alive_iff.1 hcl).kept (mu.newUnknown c ⟨t, ht, hc⟩)
      | some c' =>
        have h2 := mu.typ t c' ht
        rw [hc] at h2; injection h2 with h2; subst h2
        exact mu'.typ t c ht
    · cases a with
      | «with» t' x =>
        have h1 : u.typeMap t' = some c := hg.1
        have := mu.inv.type.inj _ _ _ h1 hc
        subst this
        obtain ⟨c', v', q⟩ := gu' _ ha
        have hx : v' = v := q.2.trans hg.2.symm
        subst hx
        exact ⟨c', q.1, _, ha, q⟩
      | withDynamic id => rw [hg.1] at hcl; exact absurd (hlive _ ha id [] (Or.inl rfl)).1 hcl
      | withDynamicWithData id x => rw [hg.1] at hcl; exact absurd (hlive _ ha id x (Or.inr rfl)).1 hcl
      | build => exact hg.elim
  have hmem : ∀ c v u, (∃ a ∈ bs, Gives u a c v) ↔ ∃ a ∈ as, Gives u a c v := by
    intro c v u; simp only [hp]
  have t2' : ∀ t, (∀ v, .with t v ∉ as) → w2.typeMap t = w.typeMap t := fun t h => t2 t (fun v => by rw [← hp]; exact h v)
  have g2' : ∀ a ∈ as, ∃ c v, Gives w2 a c v := fun a ha => g2 a ((hp a).1 ha)
  have hne : ∀ {u : World} {E : List DropEv} {P : EcsId → Bytes → Prop} (_ : Made w u e True P E cm1) (x : EcsId), w.Alive x ∨ x = e →
      ¬ NewTy w u x := by
    intro u E P mu x hx hn
    rcases hx with hx | rfl
    · exact mu.newUnknown x hn (alive_iff.1 hx).kept
    · exact mu.notType hn
  refine ⟨fun x hx c v => (m1.others x hx c v).trans (m2.others x hx c v).symm, ?_, ?_, ?_, ?_, ?_, ?_, ?_⟩
  · intro c v hc
    rw [s1, s2, hmem]
    constructor
    · rintro ⟨a, ha, hg⟩; exact ⟨a, ha, hold m1 m2 c v hc a ha hg⟩
    · rintro ⟨a, ha, hg⟩; exact ⟨a, ha, hold m2 m1 c v hc a ha hg⟩
  · intro t v
    simp only [s1, s2, hmem]
    constructor
    · rintro ⟨c, hc, h⟩; exact htyp m1 m2 t1 g2' t v c hc h
    · rintro ⟨c, hc, h⟩; exact htyp m2 m1 t2' g1 t v c hc h
  · intro c v h
    rw [s1] at h
    obtain ⟨a, ha, hg⟩ := h
    exact hall a ha c v hg
  · intro c v h
    rw [s2, hmem] at h
    obtain ⟨a, ha, hg⟩ := h
    exact hall a ha c v hg
  · intro x hx
    rw [m1.row, m2.row]
    simp [hne m1 x hx, hne m2 x hx]
  · intro x hx
    rw [alive_iff, alive_iff, m1.live, m2.live]
    simp [hne m1 x hx, hne m2 x hx]
  · intro m
    rw [infoIs_iff m1.inv, infoIs_iff m2.inv, m1.cm trivial, m2.cm trivial, m1.row, m2.row]
    simp

/-- A chain in a world that differs from `w` in the recycled buffer, seen from `w`. -/
theorem made_reuse {w w2 w' : World} {r : Option (List EcsId × Bytes × Nat)} (hw : w2 = { w with reuse := r }) {e : EcsId} {P : EcsId → Bytes → Prop}
    {E : List DropEv} {cm : ComponentMeta} (h : Made w2 w' e True P E cm) : Made w w' e True P E cm := by
  subst hw
  exact ⟨h.inv, h.ready, h.nowrap, h.live, h.known, h.fresh, h.unknown, h.newUnknown, h.notType, h.typ, h.comp, h.cm, h.look, h.locks, h.tight,
    h.used, h.row, h.others, h.self, h.log, h.evs⟩

theorem spawn_same_id {w w2 : World} (hw : w2.entities = w.entities) {kind kind2 : SpawnKind} {as bs : List BAct} {e e2 : EcsId} {w' w2' : World}
    (h1 : spawnWith kind as w = .ok e w') (h2 : spawnWith kind2 bs w2 = .ok e2 w2') : e = e2 := by
  have key : ∀ {w : World} {kind : SpawnKind} {as : List BAct} {e : EcsId} {w' : World}, spawnWith kind as w = .ok e w' →
      ∃ s, w.entities.spawn = (.ok e, s) := by
    intro w kind as e w' h
    have ht : Tri (spawnWith kind as) w (fun e _ => ∃ s, w.entities.spawn = (.ok e, s)) (fun _ _ => True) := by
      rw [spawnWith_eq, tri_bind]
      refine tri_of ?_ (fun _ _ _ => trivial)
      intro e1 w1 hs
      have hsp : ∃ s, w.entities.spawn = (.ok e1, s) := by
        unfold spawnId at hs
        cases hh : w.entities.spawn with
        | mk r s =>
          rw [hh] at hs
          cases r with
          | ok x => cases hs; exact ⟨s, rfl⟩
          | error f => cases hs
      rw [tri_bind]
      refine tri_of ?_ (fun _ _ _ => trivial)
      intro b w2 _
      rw [tri_bind]
      refine tri_of ?_ (fun _ _ _ => trivial)
      intro b1 w3 _
      rw [tri_bind]
      refine tri_of ?_ (fun _ _ _ => trivial)
      intro _ w4 _
      exact hsp
    exact ht.ok h
  obtain ⟨s1, k1⟩ := key h1
  obtain ⟨s2, k2⟩ := key h2
  rw [hw, k1] at k2
  injection k2 with k2 _
  injection k2

/-- C24 and C29 together: two chains with the same calls in any order, started in worlds that differ only in the
recycled buffer, with any kind of spawn that gives the same component metadata. -/
theorem alike {w w2 : World} (hw : Reachable w) (hw2 : Reachable w2) {r : Option (List EcsId × Bytes × Nat)} (he : w2 = { w with reuse := r })
    {k1 k2 : SpawnKind} (hk : k1.cmeta = k2.cmeta) {as bs : List BAct} (hp : as.Perm bs)
    (hv : ∀ a ∈ as, ActValid w a) (hd : Distinct w as) {e1 e2 : EcsId} {u1 u2 : World}
    (h1 : spawnWith k1 (as ++ [.build]) w = .ok e1 u1) (h2 : spawnWith k2 (bs ++ [.build]) w2 = .ok e2 u2) :
    e1 = e2 ∧ AlikeFor w u1 u2 e1 := by
  have hee := spawn_same_id (by rw [he]) h1 h2
  subst hee
  refine ⟨rfl, ?_⟩
  have hs := hw.sound
  have hs2 := hw2.sound
  have hvb : ∀ a ∈ bs, ActValid w2 a := by
    intro a ha
    have := hv a (hp.mem_iff.2 ha)
    subst he
    exact this.spawn hs.inv hs2.inv (fun _ h => h)
  have hdb : Distinct w2 bs := by
    have hsym : ∀ {a b : BAct}, ¬ Clash w a b → ¬ Clash w b a := by
      intro a b h hc
      apply h
      rcases hc with ⟨t, v, v', h1, h2⟩ | ⟨c, h1, h2⟩
      · exact Or.inl ⟨t, v', v, h2, h1⟩
      · exact Or.inr ⟨c, h2, h1⟩
    have h3 : Distinct w bs := hp.pairwise hd hsym
    refine List.Pairwise.imp ?_ h3
    intro a b hab hc
    apply hab
    rcases hc with hc | ⟨c, n1, n2⟩
    · exact Or.inl hc
    · refine Or.inr ⟨c, ?_, ?_⟩
      · subst he; cases a <;> simpa [Names] using n1
      · subst he; cases b <;> simpa [Names] using n2
  have o1 := (spawnWith_spec hs.inv hs.nowrap.ready (chainOk_valid hs.inv hs.nowrap.ready (kind := k1) hv hd)).ok h1
  have o2 := (spawnWith_spec hs2.inv hs2.nowrap.ready (chainOk_valid hs2.inv hs2.nowrap.ready (kind := k2) hvb hdb)).ok h2
  obtain ⟨va, a1, _, _, m1⟩ := outcome_build (fun hb => (hv _ hb).ne rfl) o1
  obtain ⟨vb, a2, _, _, m2⟩ := outcome_build (fun hb => (hvb _ hb).ne rfl) o2
  obtain ⟨_, _, _, _, g1, _, _, _, _, t1, _⟩ := C06_build_exact hw hv hd h1
  obtain ⟨_, _, _, _, g2, _, _, _, _, t2, _⟩ := C06_build_exact hw2 hvb hdb h2
  exact alike_aux hk hs.inv hv (fun a => hp.mem_iff) m1 a1 (made_reuse he m2) a2 t1
    (fun t ht => by rw [t2 t ht, he]) g1 g2

/-- C24: the order of the calls does not matter. -/
theorem C24_order_irrelevant {w : World} (hw : Reachable w) {kind : SpawnKind} {as bs : List BAct} (hp : as.Perm bs)
    (hv : ∀ a ∈ as, ActValid w a) (hd : Distinct w as) {e1 e2 : EcsId} {u1 u2 : World}
    (h1 : spawnWith kind (as ++ [.build]) w = .ok e1 u1) (h2 : spawnWith kind (bs ++ [.build]) w = .ok e2 u2) :
    e1 = e2 ∧ AlikeFor w u1 u2 e1 :=
  alike hw hw (r := w.reuse) rfl rfl hp hv hd h1 h2

example := C24_order_irrelevant demo_reachable (kind := .plain) (as := [.with tC (val 2 1), .with tA (val 4 2)])
  (bs := [.with tA (val 4 2), .with tC (val 2 1)]) (.swap _ _ _) (by decide +kernel) (by decide +kernel) (e1 := ⟨1, 5⟩) (e2 := ⟨1, 5⟩) (eq_of_endsOk (by decide +kernel)) (eq_of_endsOk (by decide +kernel))

/-- C29: neither the kind of spawn nor the recycled buffer (its size, its old content, or that there is none) makes a
difference. -/
theorem C29_buffer_unobservable {w w2 : World} (hw : Reachable w) (hw2 : Reachable w2) {r : Option (List EcsId × Bytes × Nat)}
    (he : w2 = { w with reuse := r }) {k1 k2 : SpawnKind} (hk : k1.cmeta = k2.cmeta) {as : List BAct}
    (hv : ∀ a ∈ as, ActValid w a) (hd : Distinct w as) {e1 e2 : EcsId} {u1 u2 : World}
    (h1 : spawnWith k1 (as ++ [.build]) w = .ok e1 u1) (h2 : spawnWith k2 (as ++ [.build]) w2 = .ok e2 u2) :
    e1 = e2 ∧ AlikeFor w u1 u2 e1 :=
  alike hw hw2 he hk (List.Perm.refl _) hv hd h1 h2

/-- C24 and C29 are not vacuous: both orders, and both kinds of spawn, return. -/
example : (∃ e u, spawnWith .plain ([.with tC (val 2 1), .with tA (val 4 2)] ++ [.build]) demo = .ok e u) ∧
    (∃ e u, spawnWith (.capacity 1000) ([.with tA (val 4 2), .with tC (val 2 1)] ++ [.build]) demo = .ok e u) ∧
    (∀ a ∈ [BAct.with tC (val 2 1), .with tA (val 4 2)], ActValid demo a) ∧ Distinct demo [BAct.with tC (val 2 1), .with tA (val 4 2)] := by
  have f : ∀ (k : SpawnKind) (as : List BAct), (∀ a ∈ as, ActValid demo a) → Distinct demo as → Fits demo k as →
    ∃ e u, spawnWith k (as ++ [.build]) demo = .ok e u := fun _ _ hv hd hf => C06_build_succeeds demo_reachable hv hd hf
  refine ⟨f _ _ (by decide +kernel) (by decide +kernel) ⟨by decide +kernel, by decide +kernel, (by intro n hn; cases hn), by decide +kernel, ?_⟩,
    f _ _ (by decide +kernel) (by decide +kernel) ⟨by decide +kernel, by decide +kernel, (by intro n hn; cases hn; decide +kernel), by decide +kernel, ?_⟩,
    by decide +kernel, by decide +kernel⟩
  all_goals
    intro t v hm
    simp only [List.mem_cons, List.not_mem_nil, or_false] at hm
    rcases hm with hm | hm <;> cases hm <;> decide +kernel

/-- There are reachable worlds that differ only in the recycled buffer: whatever is spawned first, nothing else remembers
the capacity asked for. -/
example : ∃ (w : World) (r : Option (List EcsId × Bytes × Nat)), Reachable w ∧ Reachable { w with reuse := r } ∧ w.reuse ≠ r := by
  have key1 : Call.exec (.spawn (.capacity 1) []) World.new =
      .ok () { World.new with entities := (World.new.entities.spawn).2, reuse := some ([], List.replicate 1 none, 1) } := rfl
  have key2 : Call.exec (.spawn (.capacity 2) []) World.new =
      .ok () { World.new with entities := (World.new.entities.spawn).2, reuse := some ([], List.replicate 2 none, 2) } := rfl
  refine ⟨_, some ([], List.replicate 2 none, 2), .ok _ .new ?_ key1 ?_, .ok _ .new ?_ key2 ?_, ?_⟩
  · exact okB_ok Reachable.new.sound (by decide +kernel)
  · decide +kernel
  · exact okB_ok Reachable.new.sound (by decide +kernel)
  · decide +kernel
  · decide +kernel

/-! ## C25 -/

/-- C25, the part that holds: supplying a component twice makes `build` panic, in every reachable world.  Missing from
the full claim is that no entity is produced: see `C25_row_left_behind`. -/
theorem C25_duplicates_panic_partial {w : World} (hw : Reachable w) {kind : SpawnKind} {as : List BAct} (hv : ∀ a ∈ as, ActValid w a)
    (hd : ¬ Distinct w as) : ∃ f w', spawnWith kind (as ++ [.build]) w = .error f w' := by
  have h := chain_dup hw.sound.inv hw.sound.nowrap.ready (kind := kind) hv hd
  unfold Tri at h
  cases hx : spawnWith kind (as ++ [.build]) w with
  | ok e w' => rw [hx] at h; exact h.elim
  | error f w' => exact ⟨f, w', rfl⟩

example := C25_duplicates_panic_partial demo_reachable (kind := .plain)
  (as := [.with tA (val 4 1), .withDynamicWithData (ent 1) (val 4 2)]) (by decide +kernel) (by decide +kernel)

example : (∀ a ∈ [BAct.with tA (val 4 1), .withDynamicWithData (ent 1) (val 4 2)], ActValid demo a) ∧
    ¬ Distinct demo [BAct.with tA (val 4 1), .withDynamicWithData (ent 1) (val 4 2)] := by decide +kernel

/-- Iterating the static query `ps` in `w`, keeping only what went wrong within the first `n` calls of `next`. -/
def firstFault (w : World) (n : Nat) (ps : List Param) : Option Fault :=
  match World.query ps w with
  | .error f _ => some f
  | .ok q w =>
    match q.iter w with
    | .error f => some f
    | .ok it =>
      let rec go : Nat → StaticIter → Option Fault
        | 0, _ => none
        | n + 1, it =>
          match it.next w with
          | .error f => some f
          | .ok (none, _) => none
          | .ok (some _, it) => go n it
      go n it

/-- C25 fails: when some table has as many components as were supplied (counting the duplicate) and contains all of
them, the panic comes after the entity was put into that table, and leaves its columns with different lengths.  The
program is safe code; if it catches the panic, iterating `(&A, &B)` afterwards reads outside a column. -/
theorem C25_row_left_behind : ∃ w, Reachable w ∧ ∃ w', spawnWith .plain [.with tA (val 4 1), .with tA (val 4 1), .build] w = .error .buildLenAssert w' ∧
    (∀ a ∈ [BAct.with tA (val 4 1), .with tA (val 4 1)], ActValid w a) ∧
    (∃ e, ¬ w.Row e ∧ w'.Row e) ∧ (∃ a ∈ w'.archetypes, ∃ p ∈ a.storages, p.2.elems.length ≠ a.entities.length) ∧
    firstFault w' 10 [.ref tA, .ref tB] = some (.ub .readOob) := by
  refine ⟨demo, demo_reachable, after (spawnWith .plain [.with tA (val 4 1), .with tA (val 4 1), .build] demo), eq_of_endsWith (by decide +kernel), by decide +kernel,
    ⟨⟨1, 5⟩, by decide +kernel⟩, by decide +kernel, by decide +kernel⟩

/-! ## C27 -/

/-- C27, the part that holds: in every reachable world an entity has at most one row.  Reachable worlds come from
programs that call `build` at most once on each builder (see `CallOk`); without that the claim fails, see
`C27_build_twice`. -/
theorem C27_one_row_partial {w : World} (hw : Reachable w) {e : EcsId} {k k' r r' : Nat} {a a' : Archetype}
    (h1 : w.archetypes[k]? = some a) (h2 : a.entities[r]? = some e) (h1' : w.archetypes[k']? = some a') (h2' : a'.entities[r']? = some e) :
    k = k' ∧ r = r' :=
  hw.sound.inv.row_inj (by rw [rowOf_eq h1]; exact h2) (by rw [rowOf_eq h1']; exact h2')

example := C27_one_row_partial demo_reachable table2_at three_row table2_at three_row

example : ∃ a : Archetype, demo.archetypes[2]? = some a ∧ a.entities[0]? = some (ent 3) ∧ Reachable demo :=
  ⟨_, (Option.some_get (by decide +kernel : (demo.archetypes[2]?).isSome = true)).symm, by decide +kernel, demo_reachable⟩

/-- How often `ev` is in the log and will be added to it by dropping the world. -/
def dropCount (w : World) (ev : DropEv) : Option Nat :=
  match w.dropWorld with
  | .ok evs => some ((w.log ++ evs).count ev)
  | .error _ => none

/-- C27 fails: a second `build` (safe code, no panic) puts the entity into its table again and copies its bytes again.
The value is dropped twice when the world is dropped. -/
theorem C27_build_twice : ∃ w, Reachable w ∧ ∃ e w', spawnWith .plain [.with tA (val 4 9), .build, .build] w = .ok e w' ∧
    (∃ a ∈ w'.archetypes, a.entities.count e = 2) ∧
    dropCount w ⟨.generic tA, val 4 9⟩ = some 0 ∧ dropCount w' ⟨.generic tA, val 4 9⟩ = some 2 := by
  refine ⟨demo, demo_reachable, ⟨1, 5⟩, after (spawnWith .plain [.with tA (val 4 9), .build, .build] demo), eq_of_endsOk (by decide +kernel), by decide +kernel,
    by decide +kernel, by decide +kernel⟩

/-! ## C28 -/

/-- C28 as a pair of postconditions. -/
theorem dropped_builder {w : World} (hw : Reachable w) {kind : SpawnKind} {as : List BAct} (hok : ChainOk w kind as)
    (hnb : .build ∉ as) :
    Tri (spawnWith kind as) w
      (fun e w' => w'.Alive e ∧ ¬ w'.Row e ∧ (∀ x, w'.Row x ↔ w.Row x ∨ NewTy w w' x) ∧ (∀ x c bs, w'.Has x c bs ↔ w.Has x c bs) ∧ w'.log = w.log)
      (fun _ w' => (∀ x, w'.Row x ↔ w.Row x ∨ NewTy w w' x) ∧ (∀ x c bs, w'.Has x c bs ↔ w.Has x c bs) ∧ w'.log = w.log) := by
  have hs := hw.sound
  have hmade : ∀ {e : EcsId} {w' : World} {cm : ComponentMeta}, Made w w' e False (fun _ _ => False) [] cm →
      (∀ x, w'.Row x ↔ w.Row x ∨ NewTy w w' x) ∧ (∀ x c bs, w'.Has x c bs ↔ w.Has x c bs) ∧ w'.log = w.log := by
    intro e w' cm hm
    refine ⟨fun x => by rw [hm.row]; simp, ?_, hm.log⟩
    intro x c bs
    by_cases hx : x = e
    · subst hx
      rw [hm.self]
      exact ⟨False.elim, hs.inv.not_has hm.unknown c bs⟩
    · exact hm.others x hx c bs
  refine (spawnWith_spec hs.inv hs.nowrap.ready hok).imp ?_ ?_
  · intro e w' ho
    rcases ho.made with ⟨_, hm⟩ | ⟨pre, post, _, h1, _⟩
    · refine ⟨alive_iff.2 ((hm.live e).2 (Or.inr (Or.inr rfl))), ?_, hmade hm⟩
      rw [hm.row]
      rintro (hr | hr | ⟨hr, _⟩)
      · exact hm.unknown (hs.inv.row_live hr).kept
      · exact hm.notType hr
      · exact hr
    · exact absurd (by rw [h1]; exact List.mem_append_right _ List.mem_cons_self) hnb
  · rintro f w' (hf | ⟨_, hb, _⟩)
    · rcases hf.made with ⟨_, _, hg⟩ | ⟨e, _, _, hm⟩ | ⟨e, w1, b, w2, pre, a, post, b1, w3, _, _, he, _, _, ⟨_, hm⟩ | ⟨pre', post', _, h1, _⟩⟩
      · exact ⟨hg.1.row, hg.1.has, hg.1.log⟩
      · exact hmade hm
      · exact hmade hm
      · exact absurd (by rw [he, h1]; simp) hnb
    · exact absurd hb hnb

/-- C28: a builder that is dropped without `build` (also by a panicking call on it) adds no row but those of component
entities of new types, changes no component of any entity, and drops no value.  Its entity is alive but in no table. -/
theorem C28_dropped_builder {w : World} (hw : Reachable w) {kind : SpawnKind} {as : List BAct} (hok : ChainOk w kind as)
    (hnb : .build ∉ as) :
    (∀ e w', spawnWith kind as w = .ok e w' → w'.Alive e ∧ ¬ w'.Row e ∧ (∀ x, w'.Row x ↔ w.Row x ∨ NewTy w w' x) ∧
      (∀ x c bs, w'.Has x c bs ↔ w.Has x c bs) ∧ w'.log = w.log) ∧
    (∀ f w', spawnWith kind as w = .error f w' → (∀ x, w'.Row x ↔ w.Row x ∨ NewTy w w' x) ∧
      (∀ x c bs, w'.Has x c bs ↔ w.Has x c bs) ∧ w'.log = w.log) := by
  have h := dropped_builder hw hok hnb
  unfold Tri at h
  constructor
  · intro e w' he
    rw [he] at h
    exact h
  · intro f w' he
    rw [he] at h
    exact h

/-- C28 is not vacuous: chains of valid calls without `build`. -/
example : ChainOk demo .plain [.with tA (val 4 9), .with tC (val 2 9)] ∧ .build ∉ [BAct.with tA (val 4 9), .with tC (val 2 9)] ∧
    ∃ e w', spawnWith .plain [.with tA (val 4 9), .with tC (val 2 9)] demo = .ok e w' :=
  ⟨chainOk_nobuild demo_reachable.sound.inv demo_reachable.sound.nowrap.ready (by decide +kernel), by simp,
    ⟨1, 5⟩, after (spawnWith .plain [.with tA (val 4 9), .with tC (val 2 9)] demo), eq_of_endsOk (by decide +kernel)⟩

/-! ## C25, exactly -/

instance (w : World) (as : List BAct) : Decidable (TableFits w as) :=
  decidable_of_iff (∃ a ∈ w.archetypes, a.compIds.length = as.length ∧ ∀ x ∈ as, ∃ c ∈ a.compIds, nameOf w x = some c) (by
    simp only [TableFits, names_iff])

/-- C25, exactly when the rejection is clean: `u` is the world after the same chain without `build`.  If no table has
the number of components that were supplied and all of them, `build` panics in `create_archetype` and puts the entity
into no table.  The world is `u`, except that every supplied value with a size was dropped once and that each supplied
component has a lock. -/
theorem C25_rejected_partial {w u : World} (hw : Reachable w) {kind : SpawnKind} {as : List BAct} (hv : ∀ a ∈ as, ActValid w a)
    (hd : ¬ Distinct w as) {e : EcsId} (hu : spawnWith kind as w = .ok e u) (hf : ¬ TableFits u as) (hr : u.Roomy) :
    ∃ w', spawnWith kind (as ++ [.build]) w = .error .duplicateComponent w' ∧
      w' = { u with lockLookup := w'.lockLookup, locks := w'.locks, log := w'.log } ∧ ¬ w'.Row e ∧
      (∃ evs, w'.log = u.log ++ evs ∧ ∃ g, evs.Perm g ∧ ActsOweSized u as g) ∧
      (∀ c i, u.lockLookup c = some i → w'.lockLookup c = some i) ∧ (∃ n, w'.locks = u.locks ++ List.replicate n RwLock.new) ∧
      ∀ c, w'.lockLookup c ≠ none ↔ u.lockLookup c ≠ none ∨ ∃ x ∈ as, Names u x c := by
  obtain ⟨f, w', h1, h2⟩ := chain_dup_exact hw.sound.inv hw.sound.nowrap.ready hv hd hu
  rcases h2 with ⟨_, ⟨_, h2⟩ | ⟨rfl, h2, h3, h4, h5, h6, _⟩⟩ | ⟨h2, _⟩
  · exact absurd hr h2
  · refine ⟨w', h1, h3, ?_, h2, h4, h5, h6⟩
    have h7 := (C28_dropped_builder hw (chainOk_nobuild hw.sound.inv hw.sound.nowrap.ready hv) (fun hb => (hv _ hb).ne rfl)).1 _ _ hu
    rw [h3]
    exact h7.2.1
  · exact absurd h2 hf

example := C25_rejected_partial demo_reachable (kind := .plain) (as := [.with tC (val 2 1), .with tA (val 4 1), .with tC (val 2 2)])
  (by decide +kernel) (by decide +kernel) (e := ⟨1, 5⟩) (eq_of_endsOk (by decide +kernel)) (by decide +kernel) (by decide +kernel)

example : (∀ a ∈ [BAct.with tC (val 2 1), .with tA (val 4 1), .with tC (val 2 2)], ActValid demo a) ∧
    ¬ Distinct demo [BAct.with tC (val 2 1), .with tA (val 4 1), .with tC (val 2 2)] ∧
    ∃ e u, spawnWith .plain [.with tC (val 2 1), .with tA (val 4 1), .with tC (val 2 2)] demo = .ok e u ∧
      ¬ TableFits u [.with tC (val 2 1), .with tA (val 4 1), .with tC (val 2 2)] ∧ u.Roomy :=
  ⟨by decide +kernel, by decide +kernel, ⟨1, 5⟩, after (spawnWith .plain [.with tC (val 2 1), .with tA (val 4 1), .with tC (val 2 2)] demo),
    eq_of_endsOk (by decide +kernel), by decide +kernel, by decide +kernel⟩

/-- C25 fails in exactly the other case: if some table has the number of components that were supplied and all of them,
the entity gets a row in such a table, and one of its columns has no value for that row. -/
theorem C25_corrupted {w u : World} (hw : Reachable w) {kind : SpawnKind} {as : List BAct} (hv : ∀ a ∈ as, ActValid w a)
    (hd : ¬ Distinct w as) {e : EcsId} (hu : spawnWith kind as w = .ok e u) (hf : TableFits u as) (hlen : u.archetypes.length < 2 ^ 32) :
    ∃ f w', spawnWith kind (as ++ [.build]) w = .error f w' ∧ (f = .buildLenAssert ∨ Limit f) ∧
      ∃ (k : Nat) (a a' : Archetype) (c : EcsId) (v : UVec), u.archetypes[k]? = some a ∧ w'.archetypes[k]? = some a' ∧
        a'.entities = a.entities ++ [e] ∧ (c, v) ∈ a'.storages ∧ v.elems.length = a.entities.length := by
  obtain ⟨f, w', h1, h2⟩ := chain_dup_exact hw.sound.inv hw.sound.nowrap.ready hv hd hu
  rcases h2 with ⟨h2, _⟩ | ⟨_, h2, h3⟩
  · exact absurd hf (h2 hlen)
  · exact ⟨f, w', h1, h2, h3⟩

example := C25_corrupted demo_reachable (kind := .plain) (as := [.with tA (val 4 1), .with tA (val 4 2)]) (by decide +kernel) (by decide +kernel) (e := ⟨1, 5⟩) (eq_of_endsOk (by decide +kernel)) (by decide +kernel) (by decide +kernel)

example : (∀ a ∈ [BAct.with tA (val 4 1), .with tA (val 4 2)], ActValid demo a) ∧ ¬ Distinct demo [BAct.with tA (val 4 1), .with tA (val 4 2)] ∧
    ∃ e u, spawnWith .plain [.with tA (val 4 1), .with tA (val 4 2)] demo = .ok e u ∧ TableFits u [.with tA (val 4 1), .with tA (val 4 2)] ∧
      u.archetypes.length < 2 ^ 32 :=
  ⟨by decide +kernel, by decide +kernel, ⟨1, 5⟩, after (spawnWith .plain [.with tA (val 4 1), .with tA (val 4 2)] demo),
    eq_of_endsOk (by decide +kernel), by decide +kernel, by decide +kernel⟩

end Ellecs.WorldSpec
