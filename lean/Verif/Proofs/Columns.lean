import Verif.Spec.Columns
import Verif.Proofs.System
import Verif.Props.Order
/-!
# Loops over columns
-/
namespace Ellecs.WorldSpec
open World

/-! ## Walking columns -/

theorem rowAt_eq {w : World} (h : Inv w) {k : Nat} {a : Archetype} (ha : w.archetypes[k]? = some a) (i n : Nat) {fs : List Fetch} {ns : List Nat}
    (hn : w.Strides fs ns) : Suits fs a → rowAt ns ((rowPtrs k a fs 0).map (fun p => (p, n))) i = rowPtrs k a fs i := by
  unfold Strides at hn
  induction hn with
  | nil => intro _; rfl
  | @cons f m fs ns hf _ ih =>
    intro hs
    have ih := ih (fun f hf => hs f (List.mem_cons_of_mem _ hf))
    unfold rowAt rowPtrs at *
    simp only [List.map_cons, List.zipWith_cons_cons]
    rw [ih]
    congr 1
    rcases fetch_cases f with rfl | ⟨c, hc⟩
    · rw [hf.1 rfl]
      simp [cell, Nat.mul_comm]
    · obtain ⟨j, v, q1, q2⟩ := column (h.shape a (List.mem_of_getElem? ha)) (hs f List.mem_cons_self c hc)
      obtain ⟨m', hm, hv⟩ := column_size h ha q2
      rw [cell_of q1 q2 hc, cell_of q1 q2 hc, hf.2 c m' hc hm, hv]
      simp

theorem rowsAt_eq {w : World} (h : Inv w) {k : Nat} {fs : List Fetch} {ns : List Nat} (hne : fs ≠ []) (hn : w.Strides fs ns) (hk : TableOk w fs k) :
    rowsAt ns (columnsOf w fs k) = tableRows w fs k := by
  obtain ⟨a, ha, hs⟩ := hk
  unfold rowsAt columnsOf tableRows
  simp only [ha]
  have hh : height ((rowPtrs k a fs 0).map (fun p => (p, a.entities.length))) = a.entities.length := by
    cases fs with
    | nil => exact absurd rfl hne
    | cons f fs => rfl
  rw [hh]
  exact List.map_congr_left (fun i _ => rowAt_eq h ha i _ hn hs)

theorem rowsAt_flatMap {w : World} (h : Inv w) {fs : List Fetch} {ns : List Nat} (hne : fs ≠ []) (hn : w.Strides fs ns) :
    ∀ {ks : List Nat}, (∀ k ∈ ks, TableOk w fs k) → (ks.map (columnsOf w fs)).flatMap (rowsAt ns) = ks.flatMap (tableRows w fs) := by
  intro ks
  induction ks with
  | nil => intro _; rfl
  | cons k ks ih =>
    intro hk
    rw [List.map_cons, List.flatMap_cons, List.flatMap_cons, ih (fun k h => hk k (List.mem_cons_of_mem _ h)), rowsAt_eq h hne hn (hk k List.mem_cons_self)]

/-- There are strides when there are columns. -/
theorem strides_of {w : World} (h : Inv w) {k : Nat} : ∀ {fs : List Fetch}, TableOk w fs k → ∃ ns, w.Strides fs ns ∧ Pairs (FetchSize w) fs ns := by
  intro fs
  induction fs with
  | nil => exact fun _ => ⟨[], .nil, .nil⟩
  | cons f fs ih =>
    rintro ⟨a, ha, hs⟩
    obtain ⟨ns, h1, h2⟩ := ih ⟨a, ha, fun f hf => hs f (List.mem_cons_of_mem _ hf)⟩
    rcases fetch_cases f with rfl | ⟨c, hc⟩
    · exact ⟨8 :: ns, .cons ⟨fun _ => rfl, fun c m hh => by rcases hh with hh | hh <;> cases hh⟩ h1, .cons rfl h2⟩
    · obtain ⟨j, v, q1, q2⟩ := column (h.shape a (List.mem_of_getElem? ha)) (hs f List.mem_cons_self c hc)
      obtain ⟨m, hm, hv⟩ := column_size h ha q2
      refine ⟨m.layout.size :: ns, .cons ⟨?_, ?_⟩ h1, .cons ?_ h2⟩
      · rintro rfl; rcases hc with hc | hc <;> cases hc
      · intro c' m' hc' hm'
        have : c' = c := by rcases hc with rfl | rfl <;> rcases hc' with hc' | hc' <;> cases hc' <;> rfl
        subst this
        obtain ⟨_, e1⟩ := (infoIs_iff h).1 hm
        obtain ⟨_, e2⟩ := (infoIs_iff h).1 hm'
        rw [e1] at e2; cases e2; rfl
      · rcases hc with rfl | rfl <;> exact ⟨m, hm, rfl⟩

/-! ## Storing -/

theorem storeLine_info (fs : List Fetch) (es : List EcsId) (out : List (Nat × Nat × Bytes)) : ∀ a : AWorld, (AWorld.storeLine fs es out a).info = a.info ∧
    ∀ x, x ∉ es → (AWorld.storeLine fs es out a).cell x = a.cell x := by
  induction out with
  | nil => exact fun a => ⟨rfl, fun _ _ => rfl⟩
  | cons o out ih =>
    intro a
    obtain ⟨i, j, bs⟩ := o
    unfold AWorld.storeLine
    split
    · rename_i c e _ he
      obtain ⟨h1, h2⟩ := ih { a with cell := fun x y => if x = e ∧ y = c then some bs else a.cell x y }
      refine ⟨h1, fun x hx => (h2 x hx).trans ?_⟩
      funext y
      exact if_neg (fun (h : x = e ∧ y = c) => hx (h.1 ▸ List.mem_of_getElem? he))
    · exact ih a

theorem rowDyn_cell {a b : AWorld} {x : EcsId} (h1 : a.info = b.info) (h2 : a.cell x = b.cell x) (fs : List Fetch) : a.rowDyn fs x = b.rowDyn fs x := by
  have : a.seenDyn x = b.seenDyn x := by
    funext p
    unfold AWorld.seenDyn
    rw [h2]
  unfold AWorld.rowDyn
  rw [h1, this]

theorem pairs_here {α β : Type} {R : α → β → Prop} {as : List α} {bs : List β} (h : Pairs R as bs) : ∀ i : Nat,
    (∃ x y, as[i]? = some x ∧ bs[i]? = some y ∧ R x y) ∨ (as[i]? = none ∧ bs[i]? = none) := by
  induction h with
  | nil => exact fun i => Or.inr ⟨by simp, by simp⟩
  | @cons a b as bs h1 _ ih =>
    intro i
    cases i with
    | zero => exact Or.inl ⟨a, b, rfl, rfl, h1⟩
    | succ i => exact ih i

/-- The values of a table. -/
theorem storeLine_spec {fs : List Fetch} {ns : List Nat} {cols : List (Ptr × Nat)} {es : List EcsId} {a0 : AWorld} (out : List (Nat × Nat × Bytes)) :
    ∀ {u : World} {a : AWorld}, Reachable u → u.Shows a → a.info = a0.info → Pairs (fun e r => Pairs (FetchAt u e) fs r) es (rowsAt ns cols) →
    (∀ (i j : Nat) (c : EcsId) (m : ComponentMeta) (bs : Bytes), (i, j, bs) ∈ out → fs[j]? = some (.mut c) → a0.info c = some m → bs.length = m.layout.size) →
    ∃ u', (∀ ls, ({ u with locks := ls } : World).storeAll (targetsCol fs ns cols out) = .ok { u' with locks := ls }) ∧ Reachable u' ∧
      (SameShape u u' ∧ u'.locks = u.locks) ∧ u'.Shows (AWorld.storeLine fs es out a) := by
  induction out with
  | nil => exact fun {u a} hu ha _ _ _ => ⟨u, fun _ => rfl, hu, ⟨rfl, rfl⟩, ha⟩
  | cons o out ih =>
    intro u a hu ha hinfo hp hb
    obtain ⟨i, j, bs⟩ := o
    have hb' := fun i j c m bs hm => hb i j c m bs (List.mem_cons_of_mem _ hm)
    have skip : targetsCol fs ns cols ((i, j, bs) :: out) = targetsCol fs ns cols out → AWorld.storeLine fs es ((i, j, bs) :: out) a = AWorld.storeLine fs es out a →
        ∃ u', (∀ ls, ({ u with locks := ls } : World).storeAll (targetsCol fs ns cols ((i, j, bs) :: out)) = .ok { u' with locks := ls }) ∧ Reachable u' ∧
          (SameShape u u' ∧ u'.locks = u.locks) ∧ u'.Shows (AWorld.storeLine fs es ((i, j, bs) :: out) a) := by
      intro e1 e2
      rw [e1, e2]
      exact ih hu ha hinfo hp hb'
    cases hf : fs[j]? with
    | none => exact skip (by simp only [targetsCol, hf]) (by simp only [AWorld.storeLine, hf])
    | some f =>
      cases f with
      | ecsId => exact skip (by simp only [targetsCol, hf]) (by simp only [AWorld.storeLine, hf])
      | immut c => exact skip (by simp only [targetsCol, hf]) (by simp only [AWorld.storeLine, hf])
      | «mut» c =>
        rcases pairs_here hp i with ⟨e, r, he, hr, hR⟩ | ⟨he, hr⟩
        · obtain ⟨p, hpj, hpt⟩ := Pairs.get' hR hf
          have hpt : u.PointsAt p e c := hpt
          obtain ⟨_, _, _, _, _, _, _, _, _, _, _, _, _, hh⟩ := hpt.cell hu.sound.inv
          obtain ⟨aa, a1, a2⟩ := has_used hu.sound.inv hh
          obtain ⟨hlc, mc, hmc⟩ := hu.sound.inv.live_comp a1 a2
          have q2 : u.InfoIs c mc := live_info hu.sound.inv hlc hmc
          have q3 := (ha.info _ _).2 q2
          obtain ⟨u1, g1, g2, ⟨g3, g5⟩, g4⟩ := store_one hu ha hpt q2 (hb i j c mc bs List.mem_cons_self hf (by rw [← hinfo]; exact q3))
          obtain ⟨u', k1, k2, ⟨k3, k5⟩, k4⟩ := ih (u := u1) (a := { a with cell := fun x y => if x = e ∧ y = c then some bs else a.cell x y }) g2 g4 hinfo
            (hp.imp (fun e r _ hh => hh.imp (fun f p _ hd => sameShape_fetchAt g3 hd))) hb'
          refine ⟨u', fun ls => ?_, k2, ⟨SameShape.trans g3 k3, k5.trans g5⟩, ?_⟩
          · simp only [targetsCol, hf, hr, Option.bind_some, hpj]
            unfold storeAll
            rw [writePtr_locks ls g1]
            exact k1 ls
          · simp only [AWorld.storeLine, hf, he]
            exact k4
        · exact skip (by simp only [targetsCol, hf, hr, Option.bind_none]) (by simp only [AWorld.storeLine, hf, he])

/-! ## Loops -/

theorem mapM_of_map {α β : Type} {k : α → Option β} : ∀ {as : List α} {ss : List β}, as.map k = ss.map some → as.mapM k = some ss := by
  intro as
  induction as with
  | nil => intro ss h; cases ss with | nil => rfl | cons _ _ => cases h
  | cons a as ih =>
    intro ss h
    cases ss with
    | nil => cases h
    | cons s ss =>
      rw [List.map_cons, List.map_cons] at h
      injection h with h1 h2
      exact mapM_some h1 (ih h2)

theorem forEachColumn_spec {τ : Type} {fs : List Fetch} {ns : List Nat} {body : ColBody τ} {w : World} {ls : List RwLock} {a0 : AWorld} (hne : fs ≠ [])
    (hi : Inv w) (hn : w.Strides fs ns) (hb : body.Sized a0 fs) (ks : List Nat) :
    (∀ k ∈ ks, TableOk w fs k) → ∀ {u : World} {a : AWorld} {s : ColumnIter} (x : τ), (ks.flatMap (entitiesOf w)).Nodup → Reachable u → u.Shows a → SameShape w u →
    a.info = a0.info → (∀ e ∈ ks.flatMap (entitiesOf w), a.rowDyn fs e = a0.rowDyn fs e) → Produces (fun s => ColumnIter.next w s) s (ks.map (columnsOf w fs)) →
    ∃ u', ForEachColumn fs ns body { u with locks := ls } s x { u' with locks := ls } (AWorld.sweepLines fs (a0.rowDyn fs) body (ks.map (entitiesOf w)) a x).2 ∧
      Reachable u' ∧ (SameShape w u' ∧ u'.locks = u.locks) ∧ u'.Shows (AWorld.sweepLines fs (a0.rowDyn fs) body (ks.map (entitiesOf w)) a x).1 := by
  induction ks with
  | nil =>
    intro _ u a s x _ hu ha hs _ _ hpr
    obtain ⟨s', h1⟩ := Produces.stop hpr
    refine ⟨u, .done (s' := s') ?_, hu, ⟨hs, rfl⟩, ha⟩
    rw [(C14_values_irrelevant (show SameShape w { u with locks := ls } from hs)).2.2.1]
    exact h1
  | cons k ks ih =>
    intro hk u a s x hnd hu ha hs hinfo hrows hpr
    obtain ⟨s', h1, h2⟩ := Produces.head hpr
    have hk1 := hk k List.mem_cons_self
    rw [List.flatMap_cons] at hnd hrows
    rw [List.nodup_append] at hnd
    have hp : Pairs (fun e r => w.Row e ∧ Pairs (FetchAt w e) fs r) (entitiesOf w k) (tableRows w fs k) := by
      obtain ⟨aa, haa, hsu⟩ := hk1
      unfold entitiesOf tableRows
      rw [haa]
      exact pairs_range (fun r e hr => ⟨⟨k, r, aa, haa, hr⟩, rows_fetch hi haa hr hsu⟩)
    have hp' : Pairs (fun e r => Pairs (FetchAt u e) fs r) (entitiesOf w k) (rowsAt ns (columnsOf w fs k)) := by
      rw [rowsAt_eq hi hne hn hk1]
      exact hp.imp (fun e r _ hh => hh.2.imp (fun f p _ hd => sameShape_fetchAt hs hd))
    obtain ⟨sss, h3, h4⟩ := pairs_mapM (g := fun r => (fs.zip r).mapM (fun x => ({ u with locks := ls } : World).readFetch x.1 x.2)) (k := a0.rowDyn fs) hp (by
      intro e r he hR
      have hd : Pairs (FetchAt u e) fs r := hR.2.imp (fun p i _ hh => sameShape_fetchAt hs hh)
      obtain ⟨ss, s1, s2⟩ := readDyn_eq hu.sound.inv ha hd
      refine ⟨ss, s1, ?_⟩
      rw [← hrows e (List.mem_append_left _ he), rowDyn_eq hu.sound.inv ha (sameShape_row hs hR.1)]
      exact s2)
    have h4 := mapM_of_map h4
    obtain ⟨u1, k1, k2, ⟨k3, k5⟩, k4⟩ := storeLine_spec (body x sss).2 hu ha hinfo hp' (hb x sss)
    obtain ⟨l1, l2⟩ := storeLine_info fs (entitiesOf w k) (body x sss).2 a
    obtain ⟨u', f1, f2, ⟨f3, f5⟩, f4⟩ := ih (fun k h => hk k (List.mem_cons_of_mem _ h)) (body x sss).1 hnd.2.1 k2 k4 (SameShape.trans hs k3) (l1.trans hinfo)
      (fun e he => by
        rw [rowDyn_cell l1 (l2 e (fun hh => hnd.2.2 e hh e he rfl)) fs, hrows e (List.mem_append_right _ he)]) h2
    refine ⟨u', ?_, f2, ⟨f3, f5.trans k5⟩, ?_⟩
    · rw [List.map_cons]
      unfold AWorld.sweepLines
      simp only [h4]
      exact .table (by rw [(C14_values_irrelevant (show SameShape w { u with locks := ls } from hs)).2.2.1]; exact h1)
        (by rw [rowsAt_eq hi hne hn hk1]; exact h3) (k1 ls) f1
    · rw [List.map_cons]
      unfold AWorld.sweepLines
      simp only [h4]
      exact f4

theorem forEachColumn_det {τ : Type} {fs : List Fetch} {ns : List Nat} {body : ColBody τ} {w w1 w2 : World} {s : ColumnIter} {x z1 z2 : τ}
    (h1 : ForEachColumn fs ns body w s x w1 z1) (h2 : ForEachColumn fs ns body w s x w2 z2) : w1 = w2 ∧ z1 = z2 := by
  induction h1 with
  | done h =>
    cases h2 with
    | done _ => exact ⟨rfl, rfl⟩
    | table h' _ _ _ => rw [h] at h'; cases h'
  | table a b c _ ih =>
    cases h2 with
    | done h' => rw [a] at h'; cases h'
    | table a' b' c' d' =>
      rw [a] at a'; cases a'
      rw [b] at b'; cases b'
      rw [c] at c'; cases c'
      exact ih d'

/-! ## Groups -/

theorem tables_grouped {w : World} (hi : Inv w) (hlen : w.archetypes.length < 2 ^ 32) {a : AWorld} (ha : w.Shows a) {fs : List Fetch} {ks : List Nat}
    (hk : ∀ k ∈ ks, TableOk w fs k) : a.Grouped (ks.map (entitiesOf w)) := by
  intro es hes e he e'
  obtain ⟨k, hk1, rfl⟩ := List.mem_map.1 hes
  obtain ⟨t, ht, _⟩ := hk k hk1
  unfold entitiesOf at he ⊢
  rw [ht] at he ⊢
  simp only at he ⊢
  obtain ⟨r, hr⟩ := List.mem_iff_getElem?.1 he
  have cell_none : ∀ {e : EcsId} {k r : Nat} {t : Archetype}, w.archetypes[k]? = some t → t.entities[r]? = some e → ∀ c, a.cell e c = none ↔ c ∉ t.compIds := by
    intro e k r t ht hr c
    rw [ha.cellNone, hasComp_at hi ht hr]
  constructor
  · intro he'
    obtain ⟨r', hr'⟩ := List.mem_iff_getElem?.1 he'
    refine ⟨fun hh => (ha.infoNone hi).1 hh ⟨k, r', t, ht, hr'⟩, fun c => ?_⟩
    rw [cell_none ht hr', cell_none ht hr]
  · rintro ⟨h1, h2⟩
    obtain ⟨k', r', t', ht', hr'⟩ : w.Row e' := Classical.byContradiction (fun hh => h1 ((ha.infoNone hi).2 hh))
    have : k' = k := roster_uniq hi hlen (i := k') (j := k) (ids := t'.compIds) (es := t'.entities) (jds := t.compIds) (fs := t.entities)
      (by unfold roster; rw [List.getElem?_map, ht']; rfl) (by unfold roster; rw [List.getElem?_map, ht]; rfl) (fun c => by
        have := h2 c
        rw [cell_none ht' hr', cell_none ht hr] at this
        exact ⟨fun h => Classical.byContradiction (fun h' => this.2 h' h), fun h => Classical.byContradiction (fun h' => this.1 h' h)⟩)
    subst this
    rw [ht] at ht'; injection ht' with ht'; subst ht'
    exact List.mem_of_getElem? hr'

theorem strides_shows {w : World} {a : AWorld} (ha : w.Shows a) {fs : List Fetch} {ns : List Nat} : w.Strides fs ns ↔ a.Strides fs ns := by
  unfold World.Strides AWorld.Strides
  constructor
  · exact fun h => h.imp (fun f n _ hh => ⟨hh.1, fun c m hc hm => hh.2 c m hc ((ha.info c m).1 hm)⟩)
  · exact fun h => h.imp (fun f n _ hh => ⟨hh.1, fun c m hc hm => hh.2 c m hc ((ha.info c m).2 hm)⟩)

/-! ## Bodies for rows -/

theorem storeLine_append (fs : List Fetch) (es : List EcsId) (o1 o2 : List (Nat × Nat × Bytes)) : ∀ a : AWorld,
    AWorld.storeLine fs es (o1 ++ o2) a = AWorld.storeLine fs es o2 (AWorld.storeLine fs es o1 a) := by
  induction o1 with
  | nil => exact fun _ => rfl
  | cons o o1 ih =>
    intro a
    obtain ⟨i, j, bs⟩ := o
    have key : ∀ o, AWorld.storeLine fs es ((i, j, bs) :: o) a = AWorld.storeLine fs es o (AWorld.storeLine fs es [(i, j, bs)] a) := by
      intro o
      simp only [AWorld.storeLine]
      split
      · rfl
      · rfl
    rw [List.cons_append, key (o1 ++ o2), key o1]
    exact ih _

theorem storeLine_row {es : List EcsId} {i : Nat} {e : EcsId} (he : es[i]? = some e) {gs : List Fetch} (out : List (Option Bytes)) : ∀ (fs : List Fetch) (j : Nat) (a : AWorld),
    gs.drop j = fs → AWorld.storeLine gs es (rowStores i j out) a = a.storeAll e (AWorld.cellsDyn fs out) := by
  induction out with
  | nil => intro fs j a _; cases fs with | nil => rfl | cons f fs => cases f <;> rfl
  | cons o out ih =>
    intro fs j a hd
    have hd' : gs.drop (j + 1) = fs.tail := by rw [← hd, List.tail_drop]
    have hj : gs[j]? = fs.head? := by rw [← hd, List.head?_drop]
    have ih' := fun a => ih fs.tail (j + 1) a hd'
    cases o with
    | none =>
      unfold rowStores
      rw [ih']
      cases fs with
      | nil => cases out <;> rfl
      | cons f fs => cases f <;> rfl
    | some bs =>
      unfold rowStores
      cases fs with
      | nil =>
        rw [show AWorld.storeLine gs es ((i, j, bs) :: rowStores i (j + 1) out) a = AWorld.storeLine gs es (rowStores i (j + 1) out) a from by
          simp only [AWorld.storeLine, hj, List.head?_nil], ih']
        cases out <;> rfl
      | cons f fs =>
        cases f with
        | ecsId =>
          rw [show AWorld.storeLine gs es ((i, j, bs) :: rowStores i (j + 1) out) a = AWorld.storeLine gs es (rowStores i (j + 1) out) a from by
            simp only [AWorld.storeLine, hj, List.head?_cons], ih']
          rfl
        | immut c =>
          rw [show AWorld.storeLine gs es ((i, j, bs) :: rowStores i (j + 1) out) a = AWorld.storeLine gs es (rowStores i (j + 1) out) a from by
            simp only [AWorld.storeLine, hj, List.head?_cons], ih']
          rfl
        | «mut» c =>
          simp only [AWorld.storeLine, hj, List.head?_cons, he]
          rw [ih']
          rfl

theorem sweep_append {τ : Type} {row : EcsId → Option (List AWorld.Seen)} {cells : List (Option Bytes) → List (EcsId × Bytes)} {body : Body τ} (es es' : List EcsId) :
    ∀ (a : AWorld) (x : τ), AWorld.sweep row cells body (es ++ es') a x =
      AWorld.sweep row cells body es' (AWorld.sweep row cells body es a x).1 (AWorld.sweep row cells body es a x).2 := by
  induction es with
  | nil => exact fun _ _ => rfl
  | cons e es ih =>
    intro a x
    cases hr : row e with
    | none => simp only [List.cons_append, AWorld.sweep, hr]; exact ih a x
    | some ss => simp only [List.cons_append, AWorld.sweep, hr]; exact ih _ _

theorem sweep_line {τ : Type} {fs : List Fetch} {row : EcsId → Option (List AWorld.Seen)} {body : Body τ} {gs : List EcsId} (es : List EcsId) :
    ∀ (i : Nat) (a : AWorld) (x : τ) (sss : List (List AWorld.Seen)), gs.drop i = es → es.map row = sss.map some →
      AWorld.sweep row (AWorld.cellsDyn fs) body es a x = (AWorld.storeLine fs gs (ColBody.ofRows body i x sss).2 a, (ColBody.ofRows body i x sss).1) := by
  induction es with
  | nil =>
    intro i a x sss _ h
    cases sss with
    | nil => rfl
    | cons _ _ => cases h
  | cons e es ih =>
    intro i a x sss hd h
    cases sss with
    | nil => cases h
    | cons ss sss =>
      rw [List.map_cons, List.map_cons] at h
      injection h with h1 h2
      unfold AWorld.sweep ColBody.ofRows
      simp only [h1]
      rw [ih (i + 1) _ _ sss (by rw [← List.tail_drop, hd]; rfl) h2, storeLine_append,
        storeLine_row (e := e) (by rw [← List.head?_drop, hd]; rfl) _ fs 0 a rfl]

theorem sweepLines_rows {τ : Type} {fs : List Fetch} {row : EcsId → Option (List AWorld.Seen)} {body : Body τ} (ess : List (List EcsId)) :
    (∀ es ∈ ess, ∀ e ∈ es, (row e).isSome = true) → ∀ (a : AWorld) (x : τ),
      AWorld.sweepLines fs row (ColBody.ofRows body 0) ess a x = AWorld.sweep row (AWorld.cellsDyn fs) body ess.flatten a x := by
  induction ess with
  | nil => exact fun _ _ _ => rfl
  | cons es ess ih =>
    intro h a x
    have hs : ∀ es : List EcsId, (∀ e ∈ es, (row e).isSome = true) → ∃ sss : List (List AWorld.Seen), es.map row = sss.map some := by
      intro es
      induction es with
      | nil => exact fun _ => ⟨[], rfl⟩
      | cons e es ih =>
        intro h
        obtain ⟨sss, h1⟩ := ih (fun e he => h e (List.mem_cons_of_mem _ he))
        obtain ⟨ss, h2⟩ := Option.isSome_iff_exists.1 (h e List.mem_cons_self)
        exact ⟨ss :: sss, by rw [List.map_cons, List.map_cons, h1, h2]⟩
    obtain ⟨sss, h1⟩ := hs es (h es List.mem_cons_self)
    rw [List.flatten_cons, sweep_append]
    unfold AWorld.sweepLines
    simp only [mapM_of_map h1]
    rw [ih (fun es he => h es (List.mem_cons_of_mem _ he)), sweep_line es 0 a x sss rfl h1]

end Ellecs.WorldSpec
