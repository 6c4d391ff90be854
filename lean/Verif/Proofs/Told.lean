import Verif.Spec.Told
import Verif.Proofs.Latest
import Verif.Proofs.Endless
/-!
# Values of types during a conversation
-/
namespace Ellecs
namespace World
open WorldSpec

namespace AW

/-- The value of type `t` of entity `e`. -/
def tval (a : AWorld) (e : EcsId) (t : Ty) : Option Bytes := (a.types t).bind (a.cell e)

/-- What the maps of a world satisfy; the component of `t` is alive if there is one. -/
structure Good (t : Ty) (a : AWorld) : Prop where
  infoAlive : ∀ x m, a.info x = some m → a.isAlive x = .ok true
  cellInfo : ∀ x c bs, a.cell x c = some bs → ∃ m, a.info x = some m
  cellAlive : ∀ x c bs, a.cell x c = some bs → a.isAlive c = .ok true
  typ : ∀ c, a.types t = some c → a.isAlive c = .ok true ∧ a.info c = some (.fromGeneric t)
  inj : ∀ t' c, a.types t' = some c → a.types t = some c → t' = t
  wf : a.ents.Wf
  kept : ∀ t' c, a.types t' = some c → a.ents.Kept c

theorem tval_eq {a b : AWorld} (h1 : b.types = a.types) (h2 : b.cell = a.cell) (e : EcsId) (t : Ty) : tval b e t = tval a e t := by
  unfold tval; rw [h1, h2]

theorem register_cell (t : Ty) (a : AWorld) : (a.register t).2.cell = a.cell := by
  unfold AWorld.register
  split
  · rfl
  · unfold AWorld.spawnId
    cases a.ents.spawn with
    | mk r s => cases r <;> rfl

/-- The whole effect of a registration. -/
theorem register_cases (t' : Ty) (a : AWorld) : (∃ c, a.types t' = some c ∧ a.register t' = (.ok c, a)) ∨
    (a.types t' = none ∧ ∃ f s, a.ents.spawn = (.error f, s) ∧ a.register t' = (.error f, { a with ents := s })) ∨
    (a.types t' = none ∧ ∃ c s, a.ents.spawn = (.ok c, s) ∧ a.register t' = (.ok c, { a with
        ents := s
        types := fun x => if x = t' then some c else a.types x
        info := fun x => if x = c then some (ComponentMeta.fromGeneric t') else a.info x })) := by
  unfold AWorld.register
  cases ht : a.types t' with
  | some c => exact Or.inl ⟨c, rfl, rfl⟩
  | none =>
    right
    simp only
    unfold AWorld.spawnId
    cases hs : a.ents.spawn with
    | mk r s =>
      cases r with
      | error f => exact Or.inl ⟨trivial, f, s, rfl, rfl⟩
      | ok c => exact Or.inr ⟨trivial, c, s, rfl, rfl⟩

theorem spawned_alive {s s' : Entities} {c : EcsId} (h : s.spawn = (.ok c, s')) : s'.isAlive c = .ok true := by
  have := (spawned_slot (s := s) (e := c) (by rw [h])).1
  rw [h] at this
  exact Entities.isAlive_iff.2 this

theorem spawn_wf {s s' : Entities} {r : Except Fault EcsId} (hw : s.Wf) (h : s.spawn = (r, s')) :
    s'.Wf ∧ (∀ x, s.Kept x → s'.Kept x) ∧ ∀ x, s.Kept x → r ≠ .ok x := by
  rcases Entities.spawn_spec hw with ⟨s1, h1, h2, _, h4, _⟩ | ⟨e, s1, h1, h2, _, _, h5, _⟩
  · rw [h] at h1; cases h1; exact ⟨h2, h4, fun x _ hh => by cases hh⟩
  · rw [h] at h1; cases h1; exact ⟨h2, fun x hx => (h5.1 x hx).1, fun x hx hh => by cases hh; exact (h5.1 _ hx).2 rfl⟩

theorem Good.ents {t : Ty} {a : AWorld} (h : Good t a) {r : Except Fault EcsId} {s : Entities} (hs : a.ents.spawn = (r, s)) : Good t { a with ents := s } := by
  have hk : ∀ x, a.isAlive x = .ok true → s.isAlive x = .ok true := fun x hx => by
    have := (spawn_alive hx).1
    rw [hs] at this; exact this
  obtain ⟨k1, k2, _⟩ := spawn_wf h.wf hs
  exact ⟨fun x m hx => hk _ (h.infoAlive x m hx), h.cellInfo, fun x c bs hx => hk _ (h.cellAlive x c bs hx), fun c hc => ⟨hk _ (h.typ c hc).1, (h.typ c hc).2⟩, h.inj,
    k1, fun t' c hc => k2 c (h.kept t' c hc)⟩

theorem register_good {t t' : Ty} {a : AWorld} (h : Good t a) : Good t (a.register t').2 ∧ ∀ e, tval (a.register t').2 e t = tval a e t := by
  rcases register_cases t' a with ⟨c, h1, h2⟩ | ⟨h1, f, s, h2, h3⟩ | ⟨h1, c, s, h2, h3⟩
  · rw [h2]; exact ⟨h, fun _ => rfl⟩
  · rw [h3]; exact ⟨h.ents h2, fun _ => rfl⟩
  · rw [h3]
    have hk : ∀ x, a.isAlive x = .ok true → s.isAlive x = .ok true := fun x hx => by
      have := (spawn_alive hx).1
      rw [h2] at this; exact this
    have hne : ∀ x, a.isAlive x = .ok true → x ≠ c := fun x hx hh => (spawn_alive hx).2 c (by rw [h2]) hh.symm
    have hc := spawned_alive h2
    obtain ⟨w1, w2, w3⟩ := spawn_wf h.wf h2
    refine ⟨⟨?_, ?_, fun x y bs hx => hk _ (h.cellAlive x y bs hx), ?_, ?_, w1, ?_⟩, ?_⟩
    · intro x m hx
      by_cases hxc : x = c
      · subst hxc; exact hc
      · simp only [if_neg hxc] at hx; exact hk _ (h.infoAlive x m hx)
    · intro x y bs hx
      obtain ⟨m, hm⟩ := h.cellInfo x y bs hx
      have := hne _ (h.infoAlive x m hm)
      exact ⟨m, by simp only [if_neg this]; exact hm⟩
    · intro y hy
      by_cases htt : t = t'
      · subst htt
        simp only [if_true] at hy
        cases hy
        exact ⟨hc, by simp⟩
      · simp only [if_neg htt] at hy
        have := h.typ y hy
        exact ⟨hk _ this.1, by simp only [if_neg (hne _ this.1)]; exact this.2⟩
    · intro t1 y h4 h5
      simp only at h4 h5
      by_cases q1 : t1 = t' <;> by_cases q2 : t = t'
      · rw [q1, q2]
      · rw [if_pos q1] at h4; rw [if_neg q2] at h5
        cases h4
        exact absurd rfl (w3 c (h.kept t c h5))
      · rw [if_neg q1] at h4; rw [if_pos q2] at h5
        cases h5
        exact absurd rfl (w3 c (h.kept t1 c h4))
      · rw [if_neg q1] at h4; rw [if_neg q2] at h5
        exact h.inj t1 y h4 h5
    · intro t1 y h4
      simp only at h4
      by_cases q1 : t1 = t'
      · rw [if_pos q1] at h4
        cases h4
        exact (Entities.isAlive_iff.1 hc).kept
      · rw [if_neg q1] at h4
        exact w2 y (h.kept t1 y h4)
    · intro e
      unfold tval
      by_cases q2 : t = t'
      · subst q2
        simp only [if_true, h1, Option.bind_some, Option.bind_none]
        cases hcell : a.cell e c with
        | none => rfl
        | some bs => exact absurd rfl (hne _ (h.cellAlive e c bs hcell))
      · simp only [if_neg q2]

/-- A builder during its chain: its entity has no values yet, the values given to it are of living components. -/
structure Building (b : AWorld.Draft) (a : AWorld) : Prop where
  vals : ∀ i v, (i, v) ∈ b.vals → a.isAlive i = .ok true

/-- The value of type `t` given to the builder so far. -/
def dval (b : AWorld.Draft) (a : AWorld) (t : Ty) : Option Bytes := (a.types t).bind (fun c => b.vals.lookup c)

theorem lookup_none {l : List (EcsId × Bytes)} {c : EcsId} (h : ∀ v, (c, v) ∉ l) : l.lookup c = none := by
  induction l with
  | nil => rfl
  | cons p l ih =>
    obtain ⟨i, v⟩ := p
    have hne : (c == i) = false := by
      simp only [beq_eq_false_iff_ne, ne_eq]
      rintro rfl
      exact h v List.mem_cons_self
    rw [List.lookup_cons, hne]
    exact ih (fun v hv => h v (List.mem_cons_of_mem _ hv))

theorem lookup_snoc (l : List (EcsId × Bytes)) (i c : EcsId) (v : Bytes) :
    (l ++ [(i, v)]).lookup c = (l.lookup c).or (if c = i then some v else none) := by
  induction l with
  | nil =>
    by_cases h : c = i
    · subst h; simp [List.lookup]
    · simp [List.lookup, h, beq_eq_false_iff_ne.2 h]
  | cons p l ih =>
    obtain ⟨j, u⟩ := p
    rw [List.cons_append, List.lookup_cons, List.lookup_cons]
    cases c == j with
    | true => rfl
    | false => exact ih

theorem register_alive {t' : Ty} {a : AWorld} {x : EcsId} (h : a.isAlive x = .ok true) : (a.register t').2.isAlive x = .ok true := (register_fr x t' a h).1

theorem register_dval {t t' : Ty} {a : AWorld} (b : AWorld.Draft) (hb : Building b a) :
    Building b (a.register t').2 ∧ dval b (a.register t').2 t = dval b a t := by
  refine ⟨⟨fun i v hv => register_alive (hb.vals i v hv)⟩, ?_⟩
  rcases register_cases t' a with ⟨c, h1, h2⟩ | ⟨h1, f, s, h2, h3⟩ | ⟨h1, c, s, h2, h3⟩
  · rw [h2]
  · rw [h3]; rfl
  · rw [h3]
    unfold dval
    by_cases q2 : t = t'
    · subst q2
      simp only [if_true, h1, Option.bind_some, Option.bind_none]
      exact lookup_none (fun v hv => (spawn_alive (hb.vals c v hv)).2 c (by rw [h2]) rfl)
    · simp only [if_neg q2]

/-- One call on a builder that is not `build`. -/
theorem act_given {t : Ty} {a : AWorld} (h : Good t a) {b : AWorld.Draft} (hb : Building b a) {x : BAct} (hx : x ≠ .build)
    (hd : ∀ c, a.types t = some c → (∀ v, x ≠ .withDynamicWithData c v) ∧ x ≠ .withDynamic c) :
    Good t (a.act b x).2 ∧ (∀ e, tval (a.act b x).2 e t = tval a e t) ∧ (a.act b x).2.cell = a.cell ∧ ∀ b', (a.act b x).1 = .ok b' → b'.entity = b.entity ∧
      Building b' (a.act b x).2 ∧ dval b' (a.act b x).2 t = (dval b a t).or (gives t x) := by
  have hdyn : ∀ (c : EcsId) (u : Bytes), a.isAlive c = .ok true → (∀ y, a.types t = some y → c ≠ y) →
      Building { b with vals := b.vals ++ [(c, u)] } a ∧ dval { b with vals := b.vals ++ [(c, u)] } a t = (dval b a t).or none := by
    intro c u hc hn
    refine ⟨⟨fun i v hv => ?_⟩, ?_⟩
    · rcases List.mem_append.1 hv with hv | hv
      · exact hb.vals i v hv
      · simp at hv; rw [hv.1]; exact hc
    · unfold dval
      cases ht : a.types t with
      | none => rfl
      | some y =>
        simp only [Option.bind_some]
        rw [lookup_snoc, if_neg (fun hh => hn y ht hh.symm)]
  unfold AWorld.act
  cases x with
  | build => exact absurd rfl hx
  | withDynamicWithData c v =>
    simp only
    unfold AWorld.give
    split
    · exact ⟨h, fun _ => rfl, rfl, fun b' hh => by cases hh⟩
    · split
      · exact ⟨h, fun _ => rfl, rfl, fun b' hh => by cases hh⟩
      · next m hm =>
        refine ⟨h, fun _ => rfl, rfl, fun b' hh => ?_⟩
        cases hh
        obtain ⟨k1, k2⟩ := hdyn c (v.take m.layout.size) (h.infoAlive _ _ hm) (fun y hy hcy => (hd y hy).1 v (by rw [hcy]))
        exact ⟨rfl, k1, k2⟩
  | withDynamic c =>
    simp only
    split
    · exact ⟨h, fun _ => rfl, rfl, fun b' hh => by cases hh⟩
    · split
      · exact ⟨h, fun _ => rfl, rfl, fun b' hh => by cases hh⟩
      · next m hm =>
        split
        · exact ⟨h, fun _ => rfl, rfl, fun b' hh => by cases hh⟩
        · refine ⟨h, fun _ => rfl, rfl, fun b' hh => ?_⟩
          cases hh
          obtain ⟨k1, k2⟩ := hdyn c [] (h.infoAlive _ _ hm) (fun y hy hcy => (hd y hy).2 (by rw [hcy]))
          exact ⟨rfl, k1, k2⟩
  | «with» t' v =>
    simp only
    obtain ⟨g1, g2⟩ := register_good (t' := t') h
    obtain ⟨b1, b2⟩ := register_dval (t := t) (t' := t') b hb
    have g3 := register_cell t' a
    have g4 := register_id t' a
    split
    · next h' => rw [h'] at g1 g2 g3; exact ⟨g1, g2, g3, fun b' hh => by cases hh⟩
    · next c a1 h' =>
      rw [h'] at g1 g2 g3 g4 b1 b2
      have hty := (g4 c rfl).1
      unfold AWorld.give
      split
      · exact ⟨g1, g2, g3, fun b' hh => by cases hh⟩
      · split
        · exact ⟨g1, g2, g3, fun b' hh => by cases hh⟩
        · next m hm =>
          refine ⟨g1, g2, g3, fun b' hh => ?_⟩
          cases hh
          refine ⟨rfl, ⟨fun i u hv => ?_⟩, ?_⟩
          · rcases List.mem_append.1 hv with hv | hv
            · exact b1.vals i u hv
            · simp at hv; rw [hv.1]; exact g1.infoAlive _ _ hm
          · rw [← b2, show gives t (.with t' v) = if t' = t then some (v.take t.size) else none from rfl]
            unfold dval
            by_cases htt : t' = t
            · subst htt
              simp only at hty
              simp only [hty, Option.bind_some, if_true]
              rw [lookup_snoc, if_pos rfl]
              have := (g1.typ c hty).2
              rw [hm] at this
              cases this
              rfl
            · cases ht : a1.types t with
              | none => simp [htt]
              | some y =>
                simp only [Option.bind_some, if_neg htt]
                rw [lookup_snoc, if_neg]
                rintro rfl
                exact htt (g1.inj t' y hty ht)

theorem acts_given {t : Ty} (xs : List BAct) : ∀ {a : AWorld} {b : AWorld.Draft}, Good t a → Building b a → .build ∉ xs →
    (∀ c, (AWorld.acts b xs a).2.types t = some c → ∀ x ∈ xs, (∀ v, x ≠ .withDynamicWithData c v) ∧ x ≠ .withDynamic c) →
    (∀ e, tval (AWorld.acts b xs a).2 e t = tval a e t) ∧ ∀ b', (AWorld.acts b xs a).1 = .ok b' → b'.entity = b.entity ∧
      dval b' (AWorld.acts b xs a).2 t = (dval b a t).or (xs.findSome? (gives t)) := by
  induction xs with
  | nil => intro a b h hb _ _; exact ⟨fun _ => rfl, fun b' hh => by cases hh; exact ⟨rfl, by simp [AWorld.acts]⟩⟩
  | cons x xs ih =>
    intro a b h hb hn hd
    have hkeep := acts_keeps (x :: xs) b a
    obtain ⟨k1, k2, k3, k4⟩ := act_given h hb (x := x) (fun hh => hn (by rw [hh]; exact List.mem_cons_self))
      (fun c hc => hd c (hkeep t c hc) x List.mem_cons_self)
    unfold AWorld.acts at hd ⊢
    cases hx : a.act b x with
    | mk r a1 =>
      rw [hx] at k1 k2 k3 k4
      simp only [hx] at hd ⊢
      cases r with
      | error f => exact ⟨k2, fun b' hh => by cases hh⟩
      | ok b1 =>
        simp only at hd ⊢
        obtain ⟨q1, q2, q3⟩ := k4 b1 rfl
        obtain ⟨l1, l2⟩ := ih k1 q2 (fun hh => hn (List.mem_cons_of_mem _ hh)) (fun c hc y hy => hd c hc y (List.mem_cons_of_mem _ hy))
        refine ⟨fun e => (l1 e).trans (k2 e), fun b' hh => ?_⟩
        obtain ⟨m1, m2⟩ := l2 b' hh
        refine ⟨m1.trans q1, ?_⟩
        rw [m2, q3]
        rw [List.findSome?_cons]
        cases dval b a t <;> cases gives t x <;> rfl

theorem acts_append (xs ys : List BAct) : ∀ (b : AWorld.Draft) (a : AWorld), AWorld.acts b (xs ++ ys) a =
    match AWorld.acts b xs a with
    | (.error f, a) => (.error f, a)
    | (.ok b, a) => AWorld.acts b ys a := by
  induction xs with
  | nil => intro b a; rfl
  | cons x xs ih =>
    intro b a
    rw [List.cons_append, AWorld.acts, AWorld.acts]
    cases a.act b x with
    | mk r a1 =>
      cases r with
      | error f => rfl
      | ok b1 => exact ih b1 a1

theorem dead_tval {t : Ty} {a : AWorld} (h : Good t a) {e : EcsId} (he : a.isAlive e ≠ .ok true) : tval a e t = none := by
  unfold tval
  cases a.types t with
  | none => rfl
  | some c =>
    simp only [Option.bind_some]
    cases hc : a.cell e c with
    | none => rfl
    | some bs =>
      obtain ⟨m, hm⟩ := h.cellInfo e c bs hc
      exact absurd (h.infoAlive e m hm) he

theorem born_nil {t : Ty} {as : List BAct} (h : .build ∉ as) : born t as = none := by
  unfold born
  rw [if_neg]
  intro hh
  rw [List.any_eq_true] at hh
  obtain ⟨x, hx, hy⟩ := hh
  cases x <;> first | exact h hx | cases hy

theorem born_build {t : Ty} (xs : List BAct) : born t (xs ++ [.build]) = xs.findSome? (gives t) := by
  unfold born
  rw [if_pos (by simp)]
  rw [List.findSome?_append]
  rw [show [BAct.build].findSome? (gives t) = none from rfl, Option.or_none]

theorem spawn_tell {t : Ty} {a : AWorld} (h : Good t a) (kind : SpawnKind) (as : List BAct) (hn : .build ∉ as.dropLast)
    (hd : ∀ c, (a.spawn kind as).2.types t = some c → ∀ x ∈ as, (∀ v, x ≠ .withDynamicWithData c v) ∧ x ≠ .withDynamic c) (e : EcsId) :
    tval (a.spawn kind as).2 e t = tell e t (.spawn kind as, (a.spawn kind as).1.map .id) (tval a e t) := by
  unfold AWorld.spawn AWorld.spawnId at hd ⊢
  cases hs : a.ents.spawn with
  | mk r s =>
    simp only [hs] at hd ⊢
    cases r with
    | error f => rfl
    | ok x =>
      have hx : a.isAlive x ≠ .ok true := fun hh => (spawn_alive hh).2 x (by rw [hs]) rfl
      have hg := h.ents hs
      have hb : Building ⟨x, AWorld.metaOf kind, []⟩ { a with ents := s } := ⟨fun i v hv => by cases hv⟩
      simp only at hd ⊢
      by_cases hnb : .build ∉ as
      · have hk := acts_given as hg hb hnb (fun c hc => hd c (by
          revert hc
          cases AWorld.acts ⟨x, AWorld.metaOf kind, []⟩ as { a with ents := s } with
          | mk r a1 => cases r <;> exact id))
        revert hk
        cases AWorld.acts ⟨x, AWorld.metaOf kind, []⟩ as { a with ents := s } with
        | mk r a1 =>
          intro hk
          cases r with
          | error f => exact hk.1 e
          | ok b1 =>
            show tval a1 e t = if x = e then born t as else tval a e t
            rw [hk.1 e]
            by_cases hxe : x = e
            · subst hxe
              rw [if_pos rfl, born_nil hnb]
              exact dead_tval h hx
            · rw [if_neg hxe]; rfl
      · have hmem : .build ∈ as := Classical.not_not.1 hnb
        have hne : as ≠ [] := fun hh => by rw [hh] at hmem; cases hmem
        have hlast : as.getLast hne = .build := by
          rw [← List.dropLast_concat_getLast hne] at hmem
          rcases List.mem_append.1 hmem with hh | hh
          · exact absurd hh hn
          · exact (List.mem_singleton.1 hh).symm
        obtain ⟨xs, hxs⟩ : ∃ xs, as = xs ++ [.build] := ⟨as.dropLast, by rw [← hlast]; exact (List.dropLast_concat_getLast hne).symm⟩
        subst hxs
        rw [List.dropLast_concat] at hn
        rw [acts_append] at hd ⊢
        have hk := acts_given xs hg hb hn (fun c hc y hy => hd c (by
          revert hc
          cases AWorld.acts ⟨x, AWorld.metaOf kind, []⟩ xs { a with ents := s } with
          | mk r a1 => cases r <;> exact id) y (List.mem_append_left _ hy))
        revert hk
        cases AWorld.acts ⟨x, AWorld.metaOf kind, []⟩ xs { a with ents := s } with
        | mk r a1 =>
          intro hk
          cases r with
          | error f => exact hk.1 e
          | ok b1 =>
            obtain ⟨k1, k2⟩ := hk
            obtain ⟨q1, q2⟩ := k2 b1 rfl
            show (a1.types t).bind (fun y => if e = b1.entity then b1.vals.lookup y else a1.cell e y) = if x = e then born t _ else tval a e t
            rw [q1]
            by_cases hxe : x = e
            · subst hxe
              simp only [if_true]
              rw [born_build]
              refine Eq.trans q2 ?_
              show ((a.types t).bind fun c => ([] : List (EcsId × Bytes)).lookup c).or _ = _
              cases a.types t <;> simp
            · rw [if_neg hxe]
              have : ∀ y, (if e = x then b1.vals.lookup y else a1.cell e y) = a1.cell e y := fun y => if_neg (fun hh => hxe hh.symm)
              simp only [this]
              exact k1 e

/-- A cell is changed. -/
theorem tval_set {t : Ty} {a b : AWorld} (h1 : b.types = a.types) {x c : EcsId} {o : Option Bytes}
    (h2 : b.cell = fun y z => if y = x ∧ z = c then o else a.cell y z) (e : EcsId) :
    tval b e t = if x = e ∧ a.types t = some c then o else tval a e t := by
  unfold tval
  rw [h1, h2]
  cases a.types t with
  | none => simp
  | some d =>
    simp only [Option.bind_some, Option.some.injEq]
    by_cases h : e = x ∧ d = c
    · rw [if_pos h, if_pos ⟨h.1.symm, h.2⟩]
    · rw [if_neg h, if_neg (fun hh => h ⟨hh.1.symm, hh.2⟩)]

theorem addDyn_tval {t : Ty} {a : AWorld} (x c : EcsId) (src : Bytes) (e : EcsId) :
    ((∃ f, (a.addDyn x c src).1 = .error f) ∧ tval (a.addDyn x c src).2 e t = tval a e t) ∨
    ((a.addDyn x c src).1 = .ok () ∧ (a.isAlive x ≠ .ok true ∨ a.isAlive c ≠ .ok true) ∧ tval (a.addDyn x c src).2 e t = tval a e t) ∨
    ((a.addDyn x c src).1 = .ok () ∧ ∃ m, a.info c = some m ∧
      tval (a.addDyn x c src).2 e t = if x = e ∧ a.types t = some c then some (src.take m.layout.size) else tval a e t) := by
  unfold AWorld.addDyn
  split
  · exact Or.inl ⟨⟨_, rfl⟩, rfl⟩
  · next h => exact Or.inr (Or.inl ⟨rfl, Or.inl (by rw [h]; simp), rfl⟩)
  · split
    · exact Or.inl ⟨⟨_, rfl⟩, rfl⟩
    · next h => exact Or.inr (Or.inl ⟨rfl, Or.inr (by rw [h]; simp), rfl⟩)
    · split
      · exact Or.inl ⟨⟨_, rfl⟩, rfl⟩
      · exact Or.inl ⟨⟨_, rfl⟩, rfl⟩
      · exact Or.inl ⟨⟨_, rfl⟩, rfl⟩
      · next m h1 h2 h3 => exact Or.inr (Or.inr ⟨rfl, m, h3, tval_set (a := a) (by rfl) (by rfl) e⟩)

theorem removeDyn_tval {t : Ty} {a : AWorld} (x c : EcsId) (e : EcsId) :
    ((∃ f, (a.removeDyn x c).1 = .error f) ∧ tval (a.removeDyn x c).2 e t = tval a e t) ∨
    ((a.removeDyn x c).1 = .ok () ∧ (a.isAlive x ≠ .ok true ∨ a.isAlive c ≠ .ok true) ∧ tval (a.removeDyn x c).2 e t = tval a e t) ∨
    ((a.removeDyn x c).1 = .ok () ∧ tval (a.removeDyn x c).2 e t = if x = e ∧ a.types t = some c then none else tval a e t) := by
  unfold AWorld.removeDyn
  split
  · exact Or.inl ⟨⟨_, rfl⟩, rfl⟩
  · next h => exact Or.inr (Or.inl ⟨rfl, Or.inl (by rw [h]; simp), rfl⟩)
  · split
    · exact Or.inl ⟨⟨_, rfl⟩, rfl⟩
    · next h => exact Or.inr (Or.inl ⟨rfl, Or.inr (by rw [h]; simp), rfl⟩)
    · split
      · exact Or.inl ⟨⟨_, rfl⟩, rfl⟩
      · exact Or.inl ⟨⟨_, rfl⟩, rfl⟩
      · exact Or.inr (Or.inr ⟨rfl, tval_set (a := a) (by rfl) (by rfl) e⟩)

theorem addDyn_other {t : Ty} {a : AWorld} {x c : EcsId} (src : Bytes) (hc : a.types t ≠ some c) (e : EcsId) : tval (a.addDyn x c src).2 e t = tval a e t := by
  rcases addDyn_tval (t := t) x c src (a := a) e with ⟨_, h⟩ | ⟨_, _, h⟩ | ⟨_, m, _, h⟩
  · exact h
  · exact h
  · rw [h, if_neg (fun hh => hc hh.2)]

theorem removeDyn_other {t : Ty} {a : AWorld} {x c : EcsId} (hc : a.types t ≠ some c) (e : EcsId) : tval (a.removeDyn x c).2 e t = tval a e t := by
  rcases removeDyn_tval (t := t) x c (a := a) e with ⟨_, h⟩ | ⟨_, _, h⟩ | ⟨_, h⟩
  · exact h
  · exact h
  · rw [h, if_neg (fun hh => hc hh.2)]

theorem addZst_other {t : Ty} {a : AWorld} {x c : EcsId} (hc : a.types t ≠ some c) (e : EcsId) : tval (a.addZst x c).2 e t = tval a e t := by
  unfold AWorld.addZst
  repeat' split
  all_goals first | rfl | exact addDyn_other _ hc e

theorem write_other {t : Ty} {a : AWorld} {x c : EcsId} (bs : Bytes) (hc : a.types t ≠ some c) (e : EcsId) : tval (a.write x c bs).2 e t = tval a e t := by
  unfold AWorld.write
  repeat' split
  all_goals first | rfl | (refine Eq.trans (tval_set (a := a) (x := x) (c := c) (o := some bs) (by rfl) (by rfl) e) ?_; rw [if_neg (fun hh => hc hh.2)])

theorem addComponent_tell {t : Ty} {a : AWorld} (h : Good t a) (x : EcsId) (t' : Ty) (v : Bytes) (hv : t' = t → v.length = t.size) (e : EcsId) :
    tval (a.addComponent x t' v).2 e t =
      match (a.addComponent x t' v).1 with
      | .ok _ => if x = e ∧ t' = t then some v else tval a e t
      | .error _ => tval a e t := by
  unfold AWorld.addComponent
  cases hx : a.isAlive x with
  | error f => rfl
  | ok b =>
    cases b with
    | false => rfl
    | true =>
      simp only
      obtain ⟨g1, g2⟩ := register_good (t' := t') h
      have g4 := register_id t' a
      have g5 := register_alive (t' := t') hx
      cases hr : a.register t' with
      | mk r a1 =>
        rw [hr] at g1 g2 g4 g5
        cases r with
        | error f => exact g2 e
        | ok c =>
          simp only
          have hty : a1.types t' = some c := (g4 c rfl).1
          have hother : t' ≠ t → a1.types t ≠ some c := fun hne hh => hne (g1.inj t' c hty hh)
          by_cases htt : t' = t
          · subst htt
            rcases addDyn_tval (t := t') x c v (a := a1) e with ⟨⟨f, k1⟩, k2⟩ | ⟨_, k1, _⟩ | ⟨k1, m, k2, k3⟩
            · rw [k1, k2]; exact g2 e
            · rcases k1 with k1 | k1
              · exact absurd g5 k1
              · exact absurd (g1.typ c hty).1 k1
            · rw [k1, k3]
              have := (g1.typ c hty).2
              rw [k2] at this
              cases this
              rw [show (ComponentMeta.fromGeneric t').layout.size = t'.size from rfl, List.take_of_length_le (by rw [hv rfl]; exact Nat.le_refl _)]
              simp only [hty, and_true]
              rw [g2 e]
          · rw [addDyn_other v (hother htt) e, g2 e]
            cases (a1.addDyn x c v).1 <;> simp [htt]

theorem removeComponent_tell {t : Ty} {a : AWorld} (h : Good t a) (x : EcsId) (t' : Ty) (e : EcsId) :
    tval (a.removeComponent x t').2 e t =
      match (a.removeComponent x t').1 with
      | .ok _ => if x = e ∧ t' = t then none else tval a e t
      | .error _ => tval a e t := by
  unfold AWorld.removeComponent
  cases hx : a.isAlive x with
  | error f => rfl
  | ok b =>
    cases b with
    | false => rfl
    | true =>
      simp only
      obtain ⟨g1, g2⟩ := register_good (t' := t') h
      have g4 := register_id t' a
      have g5 := register_alive (t' := t') hx
      cases hr : a.register t' with
      | mk r a1 =>
        rw [hr] at g1 g2 g4 g5
        cases r with
        | error f => exact g2 e
        | ok c =>
          simp only
          have hty : a1.types t' = some c := (g4 c rfl).1
          have hother : t' ≠ t → a1.types t ≠ some c := fun hne hh => hne (g1.inj t' c hty hh)
          by_cases htt : t' = t
          · subst htt
            rcases removeDyn_tval (t := t') x c (a := a1) e with ⟨⟨f, k1⟩, k2⟩ | ⟨_, k1, _⟩ | ⟨k1, k3⟩
            · rw [k1, k2]; exact g2 e
            · rcases k1 with k1 | k1
              · exact absurd g5 k1
              · exact absurd (g1.typ c hty).1 k1
            · rw [k1, k3]
              simp only [hty, and_true]
              rw [g2 e]
          · rw [removeDyn_other (hother htt) e, g2 e]
            cases (a1.removeDyn x c).1 <;> simp [htt]

theorem despawn_tell {t : Ty} {a : AWorld} (h : Good t a) (x e : EcsId) :
    tval (a.despawn x).2 e t =
      match (a.despawn x).1 with
      | .ok _ => if x = e then none else tval a e t
      | .error _ => tval a e t := by
  unfold AWorld.despawn
  split
  · rfl
  · next hx =>
    simp only
    by_cases hxe : x = e
    · subst hxe; rw [if_pos rfl]; exact dead_tval h (by rw [hx]; simp)
    · rw [if_neg hxe]
  · split
    · rfl
    · split
      · rfl
      · rfl
      · unfold tval
        simp only
        by_cases hxe : x = e
        · subst hxe
          simp
        · rw [if_neg hxe]
          congr 1
          funext y
          exact if_neg (fun hh => hxe hh.symm)

/-- The component of type `t` is alive, if there is one. -/
def Lives (t : Ty) (a : AWorld) : Prop := ∀ c, a.types t = some c → a.isAlive c = .ok true

theorem Lives.of_eq {t : Ty} {a b : AWorld} (h : Lives t a) (h1 : b.types = a.types) (h2 : b.ents = a.ents) : Lives t b := by
  intro c hc
  unfold AWorld.isAlive
  rw [h1] at hc
  rw [h2]
  exact h c hc

theorem register_lives {t t' : Ty} {a : AWorld} (h : Lives t a) : Lives t (a.register t').2 := by
  rcases register_cases t' a with ⟨c, h1, h2⟩ | ⟨h1, f, s, h2, h3⟩ | ⟨h1, c, s, h2, h3⟩
  · rw [h2]; exact h
  · rw [h3]
    intro y hy
    have := (spawn_alive (h y hy)).1
    rw [h2] at this; exact this
  · rw [h3]
    intro y hy
    by_cases q : t = t'
    · simp only [if_pos q] at hy
      cases hy
      exact spawned_alive h2
    · simp only [if_neg q] at hy
      have := (spawn_alive (h y hy)).1
      rw [h2] at this; exact this

theorem act_lives {t : Ty} {a : AWorld} (h : Lives t a) (b : AWorld.Draft) (x : BAct) : Lives t (a.act b x).2 := by
  unfold AWorld.act
  cases x with
  | «with» t' v =>
    simp only
    have hr := register_lives (t' := t') h
    split
    · next h' => rw [h'] at hr; exact hr
    · next h' => rw [h'] at hr; exact hr.of_eq (give_types ..) (give_ents ..)
  | withDynamicWithData c v => exact h.of_eq (give_types ..) (give_ents ..)
  | withDynamic c =>
    simp only
    repeat' split
    all_goals exact h
  | build => exact h

theorem acts_lives {t : Ty} (xs : List BAct) : ∀ {a : AWorld} (b : AWorld.Draft), Lives t a → Lives t (AWorld.acts b xs a).2 := by
  induction xs with
  | nil => intro a b h; exact h
  | cons x xs ih =>
    intro a b h
    have hx := act_lives h b x
    rw [AWorld.acts]
    cases hr : a.act b x with
    | mk r a1 =>
      rw [hr] at hx
      cases r with
      | error f => exact hx
      | ok b1 => exact ih b1 hx

theorem spawn_lives {t : Ty} {a : AWorld} (h : Lives t a) (kind : SpawnKind) (xs : List BAct) : Lives t (a.spawn kind xs).2 := by
  unfold AWorld.spawn AWorld.spawnId
  cases hs : a.ents.spawn with
  | mk r s =>
    have h1 : Lives t { a with ents := s } := fun y hy => by
      have := (spawn_alive (h y hy)).1
      rw [hs] at this; exact this
    cases r with
    | error f => exact h1
    | ok e =>
      simp only
      have hk := acts_lives xs ⟨e, AWorld.metaOf kind, []⟩ h1
      revert hk
      cases AWorld.acts ⟨e, AWorld.metaOf kind, []⟩ xs { a with ents := s } with
      | mk r a1 => cases r <;> exact id

theorem addComponent_lives {t : Ty} {a : AWorld} (h : Lives t a) (x : EcsId) (t' : Ty) (v : Bytes) : Lives t (a.addComponent x t' v).2 := by
  unfold AWorld.addComponent
  have hr := register_lives (t' := t') h
  split
  · exact h
  · exact h
  · split
    · next h' => rw [h'] at hr; exact hr
    · next h' => rw [h'] at hr; exact hr.of_eq (addDyn_types ..) (addDyn_ents ..)

theorem removeComponent_lives {t : Ty} {a : AWorld} (h : Lives t a) (x : EcsId) (t' : Ty) : Lives t (a.removeComponent x t').2 := by
  unfold AWorld.removeComponent
  have hr := register_lives (t' := t') h
  split
  · exact h
  · exact h
  · split
    · next h' => rw [h'] at hr; exact hr
    · next h' => rw [h'] at hr; exact hr.of_eq (removeDyn_types ..) (removeDyn_ents ..)

theorem lockAll_cell (b : Bool) (fs : List Fetch) (p : Bool) (a : AWorld) : (a.lockAll b fs p).2.cell = a.cell := by
  unfold AWorld.lockAll
  split
  · rfl
  · split <;> rfl

theorem query_cell (ps : List Param) (p : Bool) (a : AWorld) : (a.query ps p).2.cell = a.cell := by
  unfold AWorld.query
  split
  · rfl
  · exact lockAll_cell ..

end AW

/-- What one question does to the value of a type. -/
theorem ask_tell {q : Ask} {t : Ty} {a : AWorld} (h : AW.Good t a) (hn : Neat q) (hd : ∀ c, (a.ask q).2.types t = some c → TypedOnly c q)
    (hv : ∀ x v, q = .call (.addComponent x t v) → v.length = t.size) (e : EcsId) :
    AW.tval (a.ask q).2 e t = tell e t (q, (a.ask q).1) (AW.tval a e t) := by
  have hkeep := ask_keeps q a
  cases q with
  | spawn kind as => exact AW.spawn_tell h kind as hn (fun c hc => hd c hc) e
  | despawn x =>
    refine (AW.despawn_tell h x e).trans ?_
    show _ = tell e t (.despawn x, Except.map Answer.bool (a.despawn x).1) _
    cases (a.despawn x).1 <;> rfl
  | register t' =>
    refine ((AW.register_good h).2 e).trans ?_
    rfl
  | isAlive x => rfl
  | has t' x => rfl
  | look x c n => rfl
  | call k =>
    cases k with
    | spawn kind as => exact hn.elim
    | addComponent x t' v =>
      refine (AW.addComponent_tell h x t' v (fun htt => by subst htt; exact hv x v rfl) e).trans ?_
      show _ = tell e t (.call (.addComponent x t' v), Except.map (fun _ => Answer.unit) (a.addComponent x t' v).1) _
      cases (a.addComponent x t' v).1 <;> rfl
    | removeComponent x t' =>
      refine (AW.removeComponent_tell h x t' e).trans ?_
      show _ = tell e t (.call (.removeComponent x t'), Except.map (fun _ => Answer.unit) (a.removeComponent x t').1) _
      cases (a.removeComponent x t').1 <;> rfl
    | addDynamic x y => exact AW.addZst_other (fun hc => hd y (hkeep t y hc) rfl) e
    | addDynamicWithData x y src => exact AW.addDyn_other src (fun hc => hd y (hkeep t y hc) rfl) e
    | removeDynamic x y => exact AW.removeDyn_other (fun hc => hd y (hkeep t y hc) rfl) e
    | despawn x =>
      have h1 : (a.ask (.call (.despawn x))).2 = (a.despawn x).2 := AW.void_snd _
      have h2 : (a.ask (.call (.despawn x))).1 = Except.map (fun _ => Answer.unit) ((a.despawn x).1.map (fun _ => ())) := by
        rw [← AW.void_fst]; rfl
      rw [h1, h2]
      refine (AW.despawn_tell h x e).trans ?_
      cases (a.despawn x).1 <;> rfl
    | register t' =>
      have h1 : (a.ask (.call (.register t'))).2 = (a.register t').2 := AW.void_snd _
      rw [h1]
      exact (AW.register_good h).2 e
    | write x y bs => exact AW.write_other bs (fun hc => hd y (hkeep t y hc) rfl) e
    | query ps p => exact AW.tval_eq (AW.query_types ..) (AW.query_cell ..) e t
    | queryDynamic fs p => exact AW.tval_eq (AW.lockAll_types ..) (AW.lockAll_cell ..) e t

theorem ask_lives {q : Ask} {t : Ty} {a : AWorld} (h : AW.Lives t a) (hk : ∀ c, (a.ask q).2.types t = some c → ¬ Kills (q, (a.ask q).1) c) :
    AW.Lives t (a.ask q).2 := by
  have hdes : (a.ask q).2.types = a.types → AW.Lives t (a.ask q).2 := fun he c hc => by
    have h1 := h c (by rw [← he]; exact hc)
    exact (ask_stays a (hk c hc) h1).1
  cases q with
  | spawn kind as => exact AW.spawn_lives h kind as
  | despawn x => exact hdes (AW.despawn_types x a)
  | register t' => exact AW.register_lives h
  | isAlive x => exact h
  | has t' x => exact h
  | look x c n => exact h
  | call k =>
    cases k with
    | spawn kind as =>
      have h1 : (a.ask (.call (.spawn kind as))).2 = (a.spawn kind as).2 := AW.void_snd _
      rw [h1]; exact AW.spawn_lives h kind as
    | addComponent x t' v => exact AW.addComponent_lives h x t' v
    | removeComponent x t' => exact AW.removeComponent_lives h x t'
    | addDynamic x y => exact hdes (AW.addZst_types ..)
    | addDynamicWithData x y src => exact hdes (AW.addDyn_types ..)
    | removeDynamic x y => exact hdes (AW.removeDyn_types ..)
    | despawn x =>
      have h1 : (a.ask (.call (.despawn x))).2 = (a.despawn x).2 := AW.void_snd _
      exact hdes (by rw [h1]; exact AW.despawn_types x a)
    | register t' =>
      have h1 : (a.ask (.call (.register t'))).2 = (a.register t').2 := AW.void_snd _
      rw [h1]; exact AW.register_lives h
    | write x y bs => exact hdes (AW.write_types ..)
    | query ps p => exact hdes (AW.query_types ..)
    | queryDynamic fs p => exact hdes (AW.lockAll_types ..)

/-! ## Conversations -/

theorem view_good {w : World} (hw : Safe w []) {t : Ty} (ht : ∀ c, w.typeMap t = some c → w.Alive c) : AW.Good t w.view := by
  have hi := hw.inv.inv
  have ha := view_shows hi
  have hal : ∀ x m, w.view.info x = some m → w.view.isAlive x = .ok true := fun x m hx => by
    rw [ha.alive]
    exact Entities.isAlive_live (hi.row_live ((infoIs_iff hi).1 ((ha.info x m).1 hx)).1)
  refine ⟨hal, ?_, ?_, ?_, ?_, ?_, ?_⟩
  · intro x c bs hx
    cases h1 : w.view.info x with
    | some m => exact ⟨m, rfl⟩
    | none =>
      obtain ⟨k, r, u, v, h3, h4, _⟩ := (ha.cell x c bs).1 hx
      exact absurd ⟨k, r, u, h3, h4⟩ ((ha.infoNone hi).1 h1)
  · intro x c bs hx
    obtain ⟨p, hp⟩ := has_points ((ha.cell x c bs).1 hx)
    obtain ⟨m, hm⟩ := hp.info hi
    exact hal c m ((ha.info c m).2 hm)
  · intro c hc
    rw [ha.types] at hc
    have := ht c hc
    exact ⟨by rw [ha.alive]; exact this, (ha.info _ _).2 (hi.type_info hc (Entities.isAlive_iff.1 this))⟩
  · intro t' c h1 h2
    rw [ha.types] at h1 h2
    exact hi.type.inj _ _ _ h1 h2
  · rw [ha.ents]; exact hi.ent
  · intro t' c h1
    rw [ha.types] at h1
    rw [ha.ents]
    exact hw.inv.ready.kept hi h1

theorem tval_iff {w : World} {a : AWorld} (ha : w.Shows a) (e : EcsId) (t : Ty) (bs : Bytes) : AW.tval a e t = some bs ↔ w.HasTy e t bs := by
  unfold AW.tval HasTy
  rw [ha.types]
  cases w.typeMap t with
  | none => simp
  | some c => simp [ha.cell]

theorem world_tell {q : Ask} {w w' : World} {t : Ty} (hw : Safe w []) (hq : q.Ok w) {r : Except Fault Answer}
    (h : (∃ x, r = .ok x ∧ q.exec w = .ok x w') ∨ ∃ f, r = .error f ∧ q.exec w = .error f w' ∧ ¬ OutOfMemory f)
    (ht : ∀ c, w.typeMap t = some c → w.Alive c) (hn : Neat q) (hd : ∀ c, w'.typeMap t = some c → TypedOnly c q) (hk : ∀ c, w'.typeMap t = some c → ¬ Kills (q, r) c)
    {e : EcsId} {old : Option Bytes} (ho : ∀ bs, w.HasTy e t bs ↔ old = some bs) :
    (∀ c, w'.typeMap t = some c → w'.Alive c) ∧ ∀ bs, w'.HasTy e t bs ↔ tell e t (q, r) old = some bs := by
  have hi := hw.inv.inv
  have ha := view_shows hi
  obtain ⟨s1, s2⟩ := ask_maps hw hq h
  have hg := view_good hw ht
  have hold : AW.tval w.view e t = old := by
    apply Option.ext
    intro bs
    rw [tval_iff ha, ho]
  refine ⟨fun c hc => ?_, fun bs => ?_⟩
  · rw [← s2.types] at hc
    have hl := ask_lives (t := t) (q := q) (a := w.view) (fun c hc => (hg.typ c hc).1) (fun c hc => by rw [s1]; exact hk c (by rw [← s2.types]; exact hc)) c hc
    rw [s2.alive] at hl
    exact hl
  · rw [← tval_iff s2, ask_tell hg hn (fun c hc => hd c (by rw [← s2.types]; exact hc)) (fun x v hh => by subst hh; exact hq), s1, hold]

theorem FreeTalk.told {w w' : World} {t : Ty} {tr : List (Ask × Except Fault Answer)} (hw : Safe w []) (h : FreeTalk w tr w')
    (ht : ∀ c, w.typeMap t = some c → w.Alive c) (hn : ∀ p ∈ tr, Neat p.1) (hd : ∀ c, w'.typeMap t = some c → ∀ p ∈ tr, TypedOnly c p.1)
    (hk : ∀ c, w'.typeMap t = some c → ¬ Despawned tr c) {e : EcsId} : ∀ {old : Option Bytes}, (∀ bs, w.HasTy e t bs ↔ old = some bs) →
    (∀ c, w'.typeMap t = some c → w'.Alive c) ∧ ∀ bs, w'.HasTy e t bs ↔ World.told e t tr old = some bs := by
  induction h with
  | done w => intro old ho; exact ⟨ht, ho⟩
  | @ok w w1 w2 q x rest h1 h2 h3 h4 ih =>
    intro old ho
    have hw1 := (ask_safe hw h1).1 _ _ h2 h3
    obtain ⟨k1, k2⟩ := world_tell hw h1 (Or.inl ⟨x, rfl, h2⟩) ht (hn _ List.mem_cons_self) (fun c hc => hd c (h4.keeps hw1 hc) _ List.mem_cons_self)
      (fun c hc => (not_despawned_cons (hk c (h4.keeps hw1 hc))).1) ho
    exact ih hw1 k1 (fun p hp => hn p (List.mem_cons_of_mem _ hp)) (fun c hc p hp => hd c hc p (List.mem_cons_of_mem _ hp))
      (fun c hc => (not_despawned_cons (hk c hc)).2) k2
  | @panic w w1 w2 q f rest h1 h2 h3 h4 h5 h6 ih =>
    intro old ho
    have hw1 := (ask_safe hw h1).2 _ _ h2 (fun hh => h3 (Or.inl hh)) h4 h5
    obtain ⟨k1, k2⟩ := world_tell hw h1 (Or.inr ⟨f, rfl, h2, h3⟩) ht (hn _ List.mem_cons_self) (fun c hc => hd c (h6.keeps hw1 hc) _ List.mem_cons_self)
      (fun c hc => (not_despawned_cons (hk c (h6.keeps hw1 hc))).1) ho
    exact ih hw1 k1 (fun p hp => hn p (List.mem_cons_of_mem _ hp)) (fun c hc p hp => hd c hc p (List.mem_cons_of_mem _ hp))
      (fun c hc => (not_despawned_cons (hk c hc)).2) k2

theorem mapM_none {α β : Type} {f : α → Option β} {l : List α} {x : α} (hx : x ∈ l) (h : f x = none) : l.mapM f = none := by
  induction l with
  | nil => cases hx
  | cons y l ih =>
    rw [List.mapM_cons]
    rcases List.mem_cons.1 hx with rfl | hx
    · rw [h]; rfl
    · cases f y with
      | none => rfl
      | some z => rw [ih hx]; rfl

theorem mapM_congr {α β : Type} {f g : α → Option β} {l : List α} (h : ∀ x ∈ l, f x = g x) : l.mapM f = l.mapM g := by
  induction l with
  | nil => rfl
  | cons y l ih => rw [List.mapM_cons, List.mapM_cons, h y List.mem_cons_self, ih (fun x hx => h x (List.mem_cons_of_mem _ hx))]

/-- The maps show what the conversation says. -/
theorem row_told {w : World} {tr : List (Ask × Except Fault Answer)} {ps : List Param} (hw : Safe w []) {e : EcsId}
    (hv : ∀ p ∈ ps, ∀ t, p.Of t → ∀ bs, w.HasTy e t bs ↔ told e t tr none = some bs) (hne : ∃ p ∈ ps, ∃ t, p.Of t) :
    w.view.row ps e = toldRow tr ps e := by
  have hi := hw.inv.inv
  have ha := view_shows hi
  have hval : ∀ p ∈ ps, ∀ t, p.Of t → (w.view.types t).bind (w.view.cell e) = told e t tr none := fun p hp t ht => by
    apply Option.ext
    intro bs
    rw [← hv p hp t ht]
    exact tval_iff ha e t bs
  have heq : ps.mapM (w.view.seen e) = toldRow tr ps e := by
    refine mapM_congr (fun p hp => ?_)
    cases p with
    | ids => rfl
    | «mut» t => show Option.map _ _ = Option.map _ _; rw [hval _ hp t (Or.inl rfl)]
    | ref t => show Option.map _ _ = Option.map _ _; rw [hval _ hp t (Or.inr rfl)]
  unfold AWorld.row
  cases hinfo : w.view.info e with
  | some m => exact heq
  | none =>
    rw [← heq]
    obtain ⟨p, hp, t, ht⟩ := hne
    refine (mapM_none hp ?_).symm
    have h0 : (w.view.types t).bind (w.view.cell e) = none := by
      cases w.view.types t with
      | none => rfl
      | some c =>
        show w.view.cell e c = none
        cases hcell : w.view.cell e c with
        | none => rfl
        | some bs =>
          obtain ⟨k, r, u, v, h3, h4, _⟩ := (ha.cell e c bs).1 hcell
          exact absurd ⟨k, r, u, h3, h4⟩ ((ha.infoNone hi).1 hinfo)
    rcases ht with rfl | rfl <;> (show Option.map _ _ = none; rw [h0]; rfl)

theorem ask_locked {q : Ask} {w : World} (hw : Safe w []) (hq : q.Ok w) (ht : Locked w) :
    (∀ x w', q.exec w = .ok x w' → Locked w') ∧ (∀ f w', q.exec w = .error f w' → ¬ Limit f → f ≠ .deadlock → Locked w') := by
  obtain ⟨k1, k2⟩ := ask_asCall q w
  cases hc : q.asCall with
  | none =>
    obtain ⟨n1, n2⟩ := k2 hc
    refine ⟨fun x w' h => ?_, fun f w' h _ _ => ?_⟩
    · rw [n1 x w' h]; exact ht
    · rw [n2 f w' h]; exact ht
  | some c =>
    obtain ⟨n1, n2⟩ := k1 c hc
    have h1 := exec_locked hw.inv.inv hw.inv.ready (ask_callOk hq c hc) ht
    refine ⟨fun x w' h => h1.ok (n1 x w' h), fun f w' h hl hd => ?_⟩
    rcases h1.error (n2 f w' h) with (hx | hx) | ht
    · exact absurd hx hl
    · exact absurd hx hd
    · exact ht

theorem FreeTalk.locked {w w' : World} {tr : List (Ask × Except Fault Answer)} (hw : Safe w []) (h : FreeTalk w tr w') (ht : Locked w) : Locked w' := by
  induction h with
  | done w => exact ht
  | ok h1 h2 h3 _ ih => exact ih ((ask_safe hw h1).1 _ _ h2 h3) ((ask_locked hw h1 ht).1 _ _ h2)
  | panic h1 h2 h3 h4 h5 _ ih =>
    exact ih ((ask_safe hw h1).2 _ _ h2 (fun hh => h3 (Or.inl hh)) h4 h5) ((ask_locked hw h1 ht).2 _ _ h2 (fun hh => h3 (Or.inl hh)) h4)

end World
end Ellecs
