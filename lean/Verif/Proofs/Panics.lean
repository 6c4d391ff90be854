import Verif.Proofs.Order
import Verif.Proofs.SpawnWith
/-!
# Which entities enter the tables when a call panics
-/
namespace Ellecs.WorldSpec
open World

/-- If a type cannot be registered, nobody entered. -/
theorem getOrCreate_refused {w : World} (h : Inv w) (hn : w.Ready) (t : Ty) :
    Tri (getOrCreate t) w (fun _ _ => True) (fun _ w' => SameR w w') := by
  unfold getOrCreate
  simp only [tri_bind (x := get), tri_get]
  cases ht : w.typeMap t with
  | some id => simp only [tri_pure]
  | none =>
    simp only
    rw [tri_bind]
    refine (spawnId_spec h hn).imp ?_ ?_
    · rintro e w1 ⟨s', rfl, i1, n1, l1, f1, k1, u1, m1⟩
      obtain ⟨b, r, b1, b2, b3, b4, b5⟩ := Builder.new_spec e ComponentMeta.unit i1
      rw [tri_bind]
      unfold Tri
      rw [b1]
      simp only
      have i2 : Inv { w with entities := s', reuse := r } := i1.withReuse b5
      have hle : s'.Live e := (l1 e).2 (Or.inr rfl)
      have hbs := build_spec (w := { w with entities := s', reuse := r }) i2 b2 (by intro p hp; cases hp) List.nodup_nil
        (by rw [b3]; exact hle) (by rw [b3]; exact m1)
      rw [b3, b4] at hbs
      apply tri_bind.2
      refine tri_orDrop hbs ?_ |>.imp ?_ (fun _ _ hh => hh)
      · rintro f w3 ⟨hh, _⟩; exact absurd rfl hh
      · rintro b' w3 ⟨hb', hB⟩
        have hblk : Builder.Blk b' := by
          rcases hb' with rfl | rfl
          · exact b2.blk
          · exact ⟨b2.block, b2.len⟩
        have hent : w3.entities = s' := hB.ent
        obtain ⟨r', d1, d2⟩ := Builder.drop_spec hblk hB.inv
        rw [tri_bind]
        unfold Tri
        rw [d1]
        simp only
        apply tri_bind.2
        rw [tri_step]
        simp only
        have hrow : w3.Row e := (hB.row e).2 (Or.inr rfl)
        have hle3 : w3.entities.Live e := by rw [hent]; exact hle
        cases hme : w3.metas[e.uindex]? with
        | none => exact absurd hrow ((hB.inv.inst_none hle3).1 (by simp [instOf, hme]))
        | some o =>
          cases o with
          | none => exact absurd hrow ((hB.inv.inst_none hle3).1 (by simp [instOf, hme]))
          | some m => simp only [tri_bind, tri_modify, tri_pure]
    · rintro f w' ⟨_, _, s', rfl, _⟩
      exact (rfl : roster _ = _)

theorem drop_orDrop {α : Type} {b : Builder} {x : M α} {w w' : World} {f : Fault} (h : b.orDrop x w = .error f w') :
    ∃ w1 f1, x w = .error f1 w1 ∧ SameR w1 w' ∧ w'.typeMap = w1.typeMap := by
  unfold Builder.orDrop at h
  cases hx : x w with
  | ok a w1 => rw [hx] at h; cases h
  | error f1 w1 =>
    rw [hx] at h
    simp only at h
    refine ⟨w1, f1, rfl, ?_⟩
    have hs := bdrop_same b w1
    have ht := bdrop_types b w1
    unfold Walk Tri at hs
    unfold TM Tri at ht
    cases hd : b.drop w1 with
    | ok _ w2 => rw [hd] at h hs ht; injection h with _ h; subst h; exact ⟨hs, ht⟩
    | error _ w2 => rw [hd] at h hs ht; injection h with _ h; subst h; exact ⟨hs, ht⟩

/-- The call on a builder that panicked may have registered a type. -/
theorem act_refused {w w' : World} (h : Inv w) (hn : w.Ready) {b : Builder} {a : BAct} (ha : a ≠ .build) {f : Fault} (hx : b.act a w = .error f w') :
    (∀ t v, a = .with t v → Arr (firstSeen w w' t) (roster w) (roster w') ∧ ∀ t', t' ≠ t → w'.typeMap t' = w.typeMap t') ∧
    ((∀ t v, a ≠ .with t v) → SameR w w' ∧ w'.typeMap = w.typeMap) ∧ ∀ t id, w.typeMap t = some id → w'.typeMap t = some id := by
  unfold Builder.act at hx
  obtain ⟨w1, f1, h1, h2, h3⟩ := drop_orDrop hx
  cases a with
  | build => exact absurd rfl ha
  | withDynamic id =>
    have : w1 = w := by
      have h1 : (liftE (b.withDynamic id w) : M Builder) w = .error f1 w1 := h1
      cases hq : b.withDynamic id w with
      | ok y => rw [hq] at h1; cases h1
      | error g => rw [hq] at h1; injection h1 with _ h1; exact h1.symm
    subst this
    exact ⟨fun t v h => (by cases h), fun _ => ⟨h2, h3⟩, fun t id h => by rw [h3]; exact h⟩
  | withDynamicWithData id v =>
    have : w1 = w := by
      have h1 : (liftE (b.withDynamicWithData v id w) : M Builder) w = .error f1 w1 := h1
      cases hq : b.withDynamicWithData v id w with
      | ok y => rw [hq] at h1; cases h1
      | error g => rw [hq] at h1; injection h1 with _ h1; exact h1.symm
    subst this
    exact ⟨fun t v h => (by cases h), fun _ => ⟨h2, h3⟩, fun t id h => by rw [h3]; exact h⟩
  | «with» t v =>
    simp only at h1
    refine ⟨?_, fun hh => absurd rfl (hh t v), ?_⟩
    all_goals
      have h1 : (EStateM.bind (getOrCreate t) fun id => (EStateM.bind get fun w => liftE (b.withDynamicWithData v id w) : M Builder)) w = .error f1 w1 := h1
      unfold EStateM.bind at h1
      cases hg : getOrCreate t w with
      | error g w2 =>
        rw [hg] at h1
        injection h1 with _ h1
        subst h1
        have e1 := getOrCreate_refused h hn t
        have e2 := getOrCreate_spec h hn t
        unfold Tri at e1 e2
        rw [hg] at e1 e2
        obtain ⟨_, _, g1, _, g2⟩ := e2
        first
        | (intro t' v' hh
           cases hh
           refine ⟨?_, fun t' _ => by rw [h3, g2]⟩
           unfold firstSeen
           rw [if_pos g1, h3, g2, g1]
           exact .of_eq (by rw [h2, e1]))
        | (intro t id hh; rw [h3, g2]; exact hh)
      | ok id w2 =>
        rw [hg] at h1
        have : w1 = w2 := by
          have h1 : (liftE (b.withDynamicWithData v id w2) : M Builder) w2 = .error f1 w1 := h1
          cases hq : b.withDynamicWithData v id w2 with
          | ok y => rw [hq] at h1; cases h1
          | error g => rw [hq] at h1; injection h1 with _ h1; exact h1.symm
        subst this
        obtain ⟨g1, g2, g3, g4⟩ := getOrCreate_arr hg
        first
        | (intro t' v' hh
           cases hh
           refine ⟨?_, fun t' ht' => by rw [h3]; exact g3 t' ht'⟩
           have : firstSeen w w' t = firstSeen w w1 t := by unfold firstSeen; rw [h3]
           rw [this, h2]
           exact g1)
        | (intro t' id' hh
           rw [h3]
           by_cases ht : t' = t
           · subst ht; rw [g2, g4 _ hh]
           · rw [g3 t' ht]; exact hh)

/-- The types a chain of calls names. -/
def named : List BAct → List Ty
  | [] => []
  | .with t _ :: as => t :: named as
  | _ :: as => named as

theorem act_types {b b' : Builder} {a : BAct} {w w' : World} (h : b.act a w = .ok b' w') :
    b'.entity = b.entity ∧ (∀ t v, a = .with t v → w'.typeMap t ≠ none) ∧ (∀ t, (∀ v, a ≠ .with t v) → w'.typeMap t = w.typeMap t) ∧
      ∀ t id, w.typeMap t = some id → w'.typeMap t = some id := by
  have h1 := orDrop_ok h
  cases a with
  | «with» t v =>
    obtain ⟨id, w3, h3, k3⟩ := bind_ok h1
    obtain ⟨v4, w4, h4, k4⟩ := bind_ok k3
    injection h4 with h4 h4'; subst h4 h4'
    obtain ⟨k5, k6⟩ := liftE_ok k4
    subst k6
    obtain ⟨g1, g2, g3, g4⟩ := getOrCreate_arr h3
    refine ⟨withDynamicWithData_entity k5, fun t' v' hh => ?_, fun t' hh => g3 t' fun e => hh v (by rw [e]), fun t' id' ho => ?_⟩
    · cases hh; rw [g2]; exact fun h => by cases h
    · by_cases ht : t' = t
      · subst ht; rw [g2, g4 _ ho]
      · rw [g3 _ ht]; exact ho
  | withDynamic id =>
    obtain ⟨v4, w4, h4, k4⟩ := bind_ok h1
    injection h4 with h4 h4'; subst h4 h4'
    obtain ⟨k5, k6⟩ := liftE_ok k4
    subst k6
    exact ⟨withDynamic_entity k5, (fun _ _ hh => by cases hh), fun _ _ => rfl, fun _ _ h => h⟩
  | withDynamicWithData id v =>
    obtain ⟨v4, w4, h4, k4⟩ := bind_ok h1
    injection h4 with h4 h4'; subst h4 h4'
    obtain ⟨k5, k6⟩ := liftE_ok k4
    subst k6
    exact ⟨withDynamicWithData_entity k5, (fun _ _ hh => by cases hh), fun _ _ => rfl, fun _ _ h => h⟩
  | build =>
    obtain ⟨e1, t1, a1⟩ := build_arr h1
    exact ⟨e1, (fun _ _ hh => by cases hh), fun _ _ => by rw [t1], fun _ _ h => by rw [t1]; exact h⟩

theorem acts_types {w' : World} {b' : Builder} : ∀ (as : List BAct) (b : Builder) (w : World), b.acts as w = .ok b' w' →
    b'.entity = b.entity ∧ (∀ t ∈ named as, w'.typeMap t ≠ none) ∧ (∀ t, t ∉ named as → w'.typeMap t = w.typeMap t) ∧
      ∀ t id, w.typeMap t = some id → w'.typeMap t = some id := by
  intro as
  induction as with
  | nil =>
    intro b w h
    injection h with h h'; subst h h'
    exact ⟨rfl, (fun _ h => by cases h), fun _ _ => rfl, fun _ _ h => h⟩
  | cons a as ih =>
    intro b w h
    unfold Builder.acts at h
    obtain ⟨b1, w1, h1, k1⟩ := bind_ok h
    obtain ⟨p1, p2, p3, p4⟩ := act_types h1
    obtain ⟨q1, q2, q3, q4⟩ := ih b1 w1 k1
    have keep : ∀ t, w1.typeMap t ≠ none → w'.typeMap t ≠ none := by
      intro t ht
      cases hh : w1.typeMap t with
      | none => exact absurd hh ht
      | some id => rw [q4 t id hh]; exact fun h => by cases h
    refine ⟨q1.trans p1, ?_, ?_, fun t id ho => q4 t id (p4 t id ho)⟩
    · intro t ht
      cases a with
      | «with» t' v =>
        rcases List.mem_cons.1 ht with rfl | ht
        · exact keep _ (p2 _ v rfl)
        · exact q2 t ht
      | _ => exact q2 t ht
    · intro t ht
      cases a with
      | «with» t' v =>
        have hne : t ≠ t' := fun e => ht (by rw [e]; exact List.mem_cons_self)
        rw [q3 t (fun hh => ht (List.mem_cons_of_mem _ hh)), p3 t (fun v' e => by cases e; exact hne rfl)]
      | _ => rw [q3 t ht, p3 t (fun v' e => by cases e)]

theorem comers_append (w w' : World) (e : EcsId) (bs : List BAct) : ∀ (as : List BAct) (seen : List Ty),
    comers w w' e seen (as ++ bs) = comers w w' e seen as ++ comers w w' e ((named as).reverse ++ seen) bs := by
  intro as
  induction as with
  | nil => exact fun _ => rfl
  | cons a as ih =>
    intro seen
    cases a with
    | «with» t v => simp only [List.cons_append, comers, named, ih, List.reverse_cons, List.append_assoc, List.nil_append, List.cons_append]
    | _ => simp only [List.cons_append, comers, named, ih]

theorem comers_named {w u v : World} {e : EcsId} : ∀ (as : List BAct) (seen : List Ty), (∀ t ∈ named as, u.typeMap t = v.typeMap t) →
    comers w u e seen as = comers w v e seen as := by
  intro as
  induction as with
  | nil => exact fun _ _ => rfl
  | cons a as ih =>
    intro seen h
    cases a with
    | «with» t _ =>
      have hf : firstSeen w u t = firstSeen w v t := by unfold firstSeen; rw [h t List.mem_cons_self]
      simp only [comers, hf, ih _ (fun t' ht' => h t' (List.mem_cons_of_mem _ ht'))]
    | _ => simp only [comers, ih _ h]

theorem mkBuilder_same {kind : SpawnKind} {e : EcsId} {w w' : World} {b : Builder} (h : mkBuilder kind e w = .ok b w') :
    b.entity = e ∧ SameR w w' ∧ w'.typeMap = w.typeMap := by
  cases kind with
  | plain => exact ⟨bnew_entity h, (bnew_same _ _ _).ok h, (bnew_types _ _ _).ok h⟩
  | capacity n => exact ⟨bcap_entity h, (bcap_same _ _ _ _).ok h, (bcap_types _ _ _ _).ok h⟩
  | withMeta m => exact ⟨bnew_entity h, (bnew_same _ _ _).ok h, (bnew_types _ _ _).ok h⟩

/-- What a chain of calls that panics appends. -/
theorem spawnWith_panics {w w' : World} (h : Inv w) (hn : w.entities.NoWrap) {kind : SpawnKind} {as : List BAct} (hc : ChainOk w kind as) {f : Fault}
    (hx : spawnWith kind as w = .error f w') (hl : ¬ Limit f) :
    SameR w w' ∨ ∃ (pre : List BAct) (a : BAct) (post : List BAct) (e : EcsId) (u : World), as = pre ++ a :: post ∧ a ≠ .build ∧ spawnWith kind pre w = .ok e u ∧
      Arr (comers w w' e [] (pre ++ [a])) (roster w) (roster w') := by
  rcases (spawnWith_spec h hn.ready hc).error hx with hf | ⟨hf, _⟩
  · rcases hf.made with ⟨_, _, _, hs⟩ | ⟨e, rfl, _⟩ | ⟨e, w1, b, w2, pre, a, post, b1, w3, x1, x2, he, hp, ⟨hr, ⟨w4, ha⟩, i3, n3, blk⟩, _⟩
    · left
      exact (spawnId_same w).error hs
    · exact absurd (Or.inr (Or.inl rfl)) hl
    · right
      have hab : a ≠ .build := by rintro rfl; exact hr.elim
      have hw : w4 = w' := by
        rw [spawnWith_eq] at hx
        have e2 : b.acts as w2 = .error f w4 := by
          rw [he, acts_append, hp]
          show (EStateM.bind (b1.act a) (fun b => b.acts post)) w3 = _
          unfold EStateM.bind
          rw [ha]
        have : (EStateM.bind spawnId fun e => EStateM.bind (mkBuilder kind e) fun b => EStateM.bind (b.acts as) fun b => EStateM.bind b.drop fun _ => pure e : M EcsId) w = .error f w' := hx
        simp only [EStateM.bind, x1, x2, e2] at this
        injection this
      subst hw
      obtain ⟨r, d1, d2⟩ := Builder.drop_spec blk i3
      refine ⟨pre, a, post, e, { w3 with reuse := r }, he, hab, ?_, ?_⟩
      · rw [spawnWith_eq]
        show (EStateM.bind spawnId fun e => EStateM.bind (mkBuilder kind e) fun b => EStateM.bind (b.acts pre) fun b => EStateM.bind b.drop fun _ => pure e : M EcsId) w = _
        simp only [EStateM.bind, x1, x2, hp, d1]
        rfl
      · obtain ⟨m1, m2, m3⟩ := mkBuilder_same x2
        have s1 := (spawnId_same w).ok x1
        have t1 := (spawnId_types w).ok x1
        obtain ⟨p1, p2, p3, p4⟩ := acts_types pre b w2 hp
        obtain ⟨q1, q2, q3⟩ := act_refused i3 n3 hab ha
        have ty : w2.typeMap = w.typeMap := by rw [m3, t1]
        have first := (acts_arr w pre [] b w2 (fun _ h => by cases h) (fun t _ => by rw [ty]) hp).1
        rw [← s1, ← m2, comers_append, ← m1]
        refine Arr.append (r1 := roster w3) ?_ ?_
        · rw [comers_named pre [] (u := w4) (v := w3)]
          · exact first
          · intro t ht
            cases hh : w3.typeMap t with
            | none => exact absurd hh (p2 t ht)
            | some id => rw [q3 t id hh]
        · cases a with
          | build => exact absurd rfl hab
          | «with» t v =>
            have := (q1 t v rfl).1
            simp only [comers, List.append_nil]
            by_cases ht : t ∈ named pre
            · rw [if_pos (List.mem_reverse.2 ht)]
              unfold firstSeen at this
              rw [if_neg (p2 t ht)] at this
              exact this
            · rw [if_neg (fun hh => ht (List.mem_reverse.1 hh))]
              unfold firstSeen at this ⊢
              rw [p3 t ht, ty] at this
              exact this
          | withDynamic id => exact .of_eq (q2 (fun _ _ h => by cases h)).1
          | withDynamicWithData id v => exact .of_eq (q2 (fun _ _ h => by cases h)).1
  · exact absurd hf hl

theorem value_refused {t : Ty} {v : Bytes} {α : Type} {x : M α} {w : World} {Q : α → World → Prop} {E : World → Prop} (he : ∀ w log, E w → E { w with log := log })
    (hx : Tri x w Q (fun f w' => ¬ Limit f → E w')) : Tri (orDropValue t v x) w Q (fun f w' => ¬ Limit f → E w') := by
  unfold Tri orDropValue at *
  cases hy : x w with
  | ok y w' => rw [hy] at hx; exact hx
  | error f w' => rw [hy] at hx; exact fun hl => he _ _ (hx hl)

/-- Nobody entered and no type was registered. -/
def SameT (w w' : World) : Prop := SameR w w' ∧ w'.typeMap = w.typeMap

/-- What a call that panics appends: nothing, or the entity of a new type. -/
def Panicked (w w' : World) : Call → Prop
  | .spawn kind as => SameR w w' ∨ ∃ (pre : List BAct) (a : BAct) (post : List BAct) (e : EcsId) (u : World), as = pre ++ a :: post ∧ a ≠ .build ∧ spawnWith kind pre w = .ok e u ∧
      Arr (comers w w' e [] (pre ++ [a])) (roster w) (roster w')
  | .addComponent _ t _ | .removeComponent _ t => Arr (firstSeen w w' t) (roster w) (roster w')
  | _ => SameR w w'

theorem exec_panics {w : World} (h : Inv w) (hn : w.entities.NoWrap) {c : Call} (hc : c.Ok w) : Tri c.exec w (fun _ _ => True) (fun f w' => ¬ Limit f → Panicked w w' c) := by
  have hrefl : ∀ w, SameT w w := fun w => ⟨rfl, rfl⟩
  have hids : ∀ {w w' : World}, Same w w' → w'.idLists = w.idLists → SameR w w' := by
    intro w w' hs hi
    have hl : w'.archetypes.length = w.archetypes.length := by
      have := congrArg List.length hi
      unfold idLists at this
      simpa using this
    unfold SameR roster
    refine List.ext_getElem? fun k => ?_
    rw [List.getElem?_map, List.getElem?_map]
    cases hk : w.archetypes[k]? with
    | none =>
      rw [List.getElem?_eq_none_iff] at hk
      rw [List.getElem?_eq_none_iff.2 (by omega)]
    | some a =>
      obtain ⟨c, hc⟩ := hs.keep k a hk
      rw [hc]; rfl
  have hadd : ∀ {w : World} (_ : Inv w) (e c : EcsId) {src : Bytes} (_ : ∀ m, w.entities.Live c → compOf w.metas c.uindex = some m → m.layout.size ≤ src.length),
      Tri (addComponentDynamicWithData e c src) w (fun _ _ => True) (fun f w' => ¬ Limit f → SameT w w') := by
    intro w h e c src hsrc
    refine (addDyn_spec h e c hsrc).imp (fun _ _ _ => trivial) ?_
    rintro f w' (⟨_, _, rfl⟩ | ⟨_, _, _, rfl⟩ | ⟨_, _, _, _, rfl⟩ | ⟨_, _, _, _, _, hs, _, _, _, hi⟩ | ⟨hl, _⟩) hlim
    · exact hrefl _
    · exact hrefl _
    · exact hrefl _
    · exact ⟨hids hs hi, hs.typ⟩
    · exact absurd hl hlim
  have hrem : ∀ {w : World} (_ : Inv w) (e c : EcsId), Tri (removeComponentDynamic e c) w (fun _ _ => True) (fun f w' => ¬ Limit f → SameT w w') := by
    intro w h e c
    refine (removeDyn_spec h e c).imp (fun _ _ _ => trivial) ?_
    rintro f w' (⟨_, _, rfl⟩ | ⟨_, _, _, rfl⟩ | ⟨_, _, _, _, rfl⟩ | ⟨hl, _⟩) hlim
    · exact hrefl _
    · exact hrefl _
    · exact hrefl _
    · exact absurd hl hlim
  have typed : ∀ {t : Ty} {id : EcsId} {w1 w' : World}, getOrCreate t w = .ok id w1 → SameT w1 w' → Arr (firstSeen w w' t) (roster w) (roster w') := by
    intro t id w1 w' hg ⟨h1, h2⟩
    have := (getOrCreate_arr hg).1
    unfold firstSeen at this ⊢
    rw [h2, h1]
    exact this
  have failed : ∀ {t : Ty} {w' : World}, SameT w w' → Arr (firstSeen w w' t) (roster w) (roster w') := by
    intro t w' ⟨h1, h2⟩
    unfold firstSeen
    rw [h2]
    split
    · rename_i h; rw [h]; exact .of_eq h1
    · exact .of_eq h1
  have reg : ∀ t, Tri (getOrCreate t) w (fun id w1 => GotId w t id w1 ∧ getOrCreate t w = .ok id w1) (fun _ w1 => SameT w w1) := by
    intro t
    have t1 := getOrCreate_spec h hn.ready t
    have t2 := getOrCreate_refused h hn.ready t
    unfold Tri at *
    cases hx : getOrCreate t w with
    | ok id w1 =>
      rw [hx] at t1 t2
      obtain ⟨g1, g2, g3, g4, g5⟩ := t1
      exact ⟨⟨g1, g2, g3, g4, g5⟩, rfl⟩
    | error f w1 =>
      rw [hx] at t1 t2
      obtain ⟨_, _, _, _, g2⟩ := t1
      exact ⟨t2, g2⟩
  cases c with
  | spawn kind as =>
    unfold Call.exec
    rw [tri_bind]
    refine tri_of (fun _ _ _ => by rw [tri_pure]; trivial) (fun f w' hx hl => spawnWith_panics h hn hc hx hl)
  | register t =>
    unfold Call.exec
    rw [tri_bind]
    exact (reg t).imp (fun _ _ _ => by rw [tri_pure]; trivial) (fun f w' hx _ => hx.1)
  | addComponent e t v =>
    unfold Call.exec addComponent
    rw [tri_bind]
    have inner : Tri (do
        let w ← (get : M World)
        let alive ← liftE (w.isAlive e)
        if !alive then throw .notAlive
        getOrCreate t) w (fun id w1 => GotId w t id w1 ∧ getOrCreate t w = .ok id w1) (fun f w' => ¬ Limit f → SameT w w') := by
      simp only [tri_bind, tri_get, tri_liftE]
      rcases isAlive_answer h e with ⟨h1, h2⟩ | ⟨h1, h2⟩ | ⟨h1, h2⟩
      · rw [h1]; exact fun _ => hrefl _
      · rw [h1]; simp only [Bool.not_false, if_true]; exact fun _ => hrefl _
      · rw [h1]
        simp only [Bool.not_true, Bool.false_eq_true, if_false]
        exact (reg t).imp (fun _ _ h => h) (fun _ _ h _ => h)
    refine (value_refused (E := SameT w) (fun _ _ h => h) inner).imp ?_ (fun _ _ h hl => failed (h hl))
    rintro id w1 ⟨g, hg⟩
    have hsz : ∀ m, w1.entities.Live id → compOf w1.metas id.uindex = some m → m.layout.size ≤ v.length := by
      intro m hli hm
      rw [g.info hli] at hm; injection hm with hm; rw [← hm]; exact Nat.le_of_eq (Eq.symm hc)
    exact (hadd g.grow.inv e id hsz).imp (fun _ _ _ => trivial) (fun _ _ hh hlim => typed hg (hh hlim))
  | removeComponent e t =>
    unfold Call.exec removeComponent
    simp only [tri_bind, tri_get, tri_liftE]
    rcases isAlive_answer h e with ⟨h1, h2⟩ | ⟨h1, h2⟩ | ⟨h1, h2⟩
    · rw [h1]; exact fun _ => failed (hrefl _)
    · rw [h1]; simp only [Bool.not_false, if_true]; exact fun _ => failed (hrefl _)
    · rw [h1]
      simp only [Bool.not_true, Bool.false_eq_true, if_false]
      rw [tri_bind]
      refine (reg t).imp ?_ (fun _ _ hh _ => failed hh)
      rintro id w1 ⟨g, hg⟩
      exact (hrem g.grow.inv e id).imp (fun _ _ _ => trivial) (fun _ _ hh hlim => typed hg (hh hlim))
  | addDynamic e c =>
    unfold Call.exec addComponentDynamic
    simp only [tri_bind, tri_get, tri_liftE]
    cases w.isAlive e with
    | error f => exact fun _ => rfl
    | ok b =>
      cases b with
      | false => exact fun _ => rfl
      | true =>
        simp only [Bool.not_true, Bool.false_eq_true, if_false, tri_bind, tri_liftE]
        cases w.isAlive c with
        | error f => exact fun _ => rfl
        | ok b =>
          cases b with
          | false => exact fun _ => rfl
          | true =>
            simp only [Bool.not_true, Bool.false_eq_true, if_false, tri_bind, tri_liftE]
            rcases getEntityMeta_spec h c with ⟨g1, g2⟩ | ⟨g1, g2⟩ | ⟨g1, g2, g3, g4⟩ | ⟨im, cm, g1, g2, g3, g4, g5⟩
            · rw [g1]; exact fun _ => rfl
            · rw [g1]; exact fun _ => rfl
            · rw [g1]; exact fun _ => rfl
            · rw [g1]
              simp only [unwrap]
              by_cases hz : cm.layout.size ≠ 0
              · rw [if_pos hz]; exact fun _ => rfl
              · rw [if_neg hz]
                refine (hadd h e c ?_).imp (fun _ _ h => h) (fun _ _ h hl => (h hl).1)
                intro m _ hm
                rw [g4] at hm; injection hm with hm; subst hm
                simp; omega
  | addDynamicWithData e c src =>
    refine (hadd h e c (fun m hl hm => hc m ?_)).imp (fun _ _ h => h) (fun _ _ h hl => (h hl).1)
    rw [infoIs_iff h]
    refine ⟨?_, hm⟩
    rcases getEntityMeta_spec h c with ⟨g1, g2⟩ | ⟨g1, g2⟩ | ⟨g1, g2, g3, g4⟩ | ⟨im, cm, g1, g2, g3, g4, g5⟩
    · have := hl.lt; omega
    · exact absurd hl g2
    · rw [inst_none_iff_comp.1 g3] at hm; cases hm
    · exact (row_iff c).2 ⟨_, _, g5⟩
  | removeDynamic e c => exact (hrem h e c).imp (fun _ _ h => h) (fun _ _ h hl => (h hl).1)
  | despawn e =>
    unfold Call.exec
    rw [tri_bind]
    refine (despawn_spec h e).imp (fun _ _ _ => by rw [tri_pure]; trivial) ?_
    rintro f w' ⟨rfl, _⟩ _
    exact rfl
  | write e c bs =>
    have : Walk SameR (Call.exec (.write e c bs)) w := by
      refine (Walk.get w).bind' fun v w => (Walk.liftE _ w).bind' fun p w => ?_
      cases p with
      | none => exact Walk.pure _ w
      | some p => exact Walk.step fun _ h => writePtr_same h
    exact this.imp (fun _ _ _ => trivial) (fun _ _ h _ => h)
  | query ps b =>
    have : Walk SameR (Call.exec (.query ps b)) w := by
      refine Walk.bind' ?_ fun q w => rfl
      unfold Walk Tri World.query
      cases allFetches w ps with
      | none => exact (rfl : roster _ = _)
      | some fs =>
        simp only
        cases acquireAllStatic w [] w.locks fs <;> exact (rfl : roster _ = _)
    exact this.imp (fun _ _ _ => trivial) (fun _ _ h _ => h)
  | queryDynamic fs b =>
    have : Walk SameR (Call.exec (.queryDynamic fs b)) w := by
      refine Walk.bind' ?_ fun q w => rfl
      unfold Walk Tri World.queryDynamic
      cases acquireAllDyn w [] false w.locks fs <;> exact (rfl : roster _ = _)
    exact this.imp (fun _ _ _ => trivial) (fun _ _ h _ => h)

theorem panic_lines {w w' : World} (h : Inv w) (hn : w.entities.NoWrap) (h' : Inv w') (hlen : w'.archetypes.length < 2 ^ 32) {c : Call} (hc : c.Ok w) {f : Fault}
    (hx : c.exec w = .error f w') (hl : ¬ Limit f) : PanicLines w w' c := by
  have := (exec_panics h hn hc).error hx hl
  have arr : ∀ {xs}, Arr xs (roster w) (roster w') → Arrive w'.HasComp xs (lines w) (lines w') := by
    intro xs ha
    rw [lines_eq w, lines_eq w']
    exact ha.arrive h' hlen (Pre.refl _)
  cases c with
  | spawn kind as =>
    rcases this with hs | ⟨pre, a, post, e, u, h1, h2, h3, h4⟩
    · exact Or.inl (SameR.lines hs)
    · exact Or.inr ⟨pre, a, post, e, u, h1, h2, h3, arr h4⟩
  | addComponent e t v => exact arr this
  | removeComponent e t => exact arr this
  | _ => exact SameR.lines this

end Ellecs.WorldSpec
