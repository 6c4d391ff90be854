import Verif.Props.Script
import Verif.Spec.Clients
/-!
# Lemmas for C68
-/
namespace Ellecs.WorldSpec
open World

/-- Fresh entities for the rows. -/
structure Fresh (sn : Scene) (es : List EcsId) (n : Nat) : Prop where
  len : es.length = n
  nodup : es.Nodup
  new : ∀ e ∈ es, e ∉ sn.db.map Prod.fst ∧ e ∉ sn.dead

theorem zip_keys {es : List EcsId} {rs : List Fields} (h : es.length = rs.length) : (es.zip rs).map Prod.fst = es := by
  rw [List.map_fst_zip (by omega)]

theorem spawnAll_wp {sc : Scope} : ∀ (rs : List Fields) {sn : Scene} {Q : List EcsId → Scene → Prop}, (∀ r ∈ rs, sc.Row r) →
    sn.spawned + rs.length + sc.types.length ≤ 2 ^ 32 →
    (∀ es, Fresh sn es rs.length → Q es ⟨sn.db ++ es.zip rs, sn.dead, sn.spawned + rs.length⟩) → (Script.spawnAll rs).wp sc sn Q := by
  intro rs
  induction rs with
  | nil =>
    intro sn Q _ _ h
    have := h [] ⟨rfl, by simp, by simp⟩
    show Q [] sn
    simpa using this
  | cons r rs ih =>
    intro sn Q hr hn h
    rw [List.length_cons] at hn
    have hr0 := hr r List.mem_cons_self
    refine ⟨hr0.nodup, hr0.size, hr0.allows, by omega, fun e h1 h2 => ?_⟩
    refine (C67_bind _ _).2 (ih (fun r' h' => hr r' (List.mem_cons_of_mem _ h')) (by show sn.spawned + 1 + rs.length + sc.types.length ≤ _; omega) ?_)
    intro es hes
    have hm : ∀ x ∈ es, x ∉ sn.db.map Prod.fst ∧ x ≠ e ∧ x ∉ sn.dead := by
      intro x hx
      obtain ⟨h3, h4⟩ := hes.new x hx
      simp only [List.map_append, List.map_cons, List.map_nil, List.mem_append, List.mem_singleton, not_or] at h3
      exact ⟨h3.1, h3.2, h4⟩
    have := h (e :: es) ⟨by simp [hes.len], List.nodup_cons.2 ⟨fun h3 => (hm e h3).2.1 rfl, hes.nodup⟩, ?_⟩
    · show Q (e :: es) _
      simpa [List.append_assoc, Nat.add_assoc, Nat.add_comm 1] using this
    · intro x hx
      rcases List.mem_cons.1 hx with rfl | hx
      · exact ⟨h1, h2⟩
      · exact ⟨(hm x hx).1, (hm x hx).2.2⟩

/-! ### changing one entity after the other -/

theorem update_mid {pre post : Db} {e : EcsId} {r : Fields} (g : Fields → Fields) (h1 : e ∉ pre.map Prod.fst) (h2 : e ∉ post.map Prod.fst) :
    Db.update e g (pre ++ (e, r) :: post) = pre ++ (e, g r) :: post := by
  have h : ∀ l : Db, e ∉ l.map Prod.fst → Db.update e g l = l := fun l hl => Db.update_same fun x hx he => absurd (List.mem_map.2 ⟨x, hx, he⟩) hl
  have hp := h pre h1
  have hq := h post h2
  unfold Db.update at hp hq ⊢
  rw [List.map_append, List.map_cons, hp, hq]
  simp

theorem lookup_mid {pre post : Db} {e : EcsId} {r : Fields} (h1 : e ∉ pre.map Prod.fst) : (pre ++ (e, r) :: post).lookup e = some r := by
  rw [lookup_append', lookup_none.2 h1, List.lookup_cons]
  simp

/-- A script `p e` that changes the row of `e` by `g` (if it has the property `P`), done for all entities. -/
theorem each_wp {sc : Scope} {p : EcsId → Script Unit} {g : Fields → Fields} {P : Fields → Prop}
    (hp : ∀ (e : EcsId) (r : Fields) (sn : Scene) (Q : Unit → Scene → Prop), sn.db.lookup e = some r → P r → Q () { sn with db := sn.db.update e g } → (p e).wp sc sn Q) :
    ∀ (es : List EcsId) (rs : List Fields) (pre : Db) (sn : Scene) (Q : Unit → Scene → Prop), es.length = rs.length → (∀ r ∈ rs, P r) →
      sn.db = pre ++ es.zip rs → (sn.db.map Prod.fst).Nodup → Q () { sn with db := pre ++ es.zip (rs.map g) } → (Script.forEachIn es p).wp sc sn Q := by
  intro es
  induction es with
  | nil =>
    intro rs pre sn Q _ _ h _ hQ
    show Q () sn
    simp only [List.zip_nil_left] at hQ h
    rw [← h] at hQ
    exact hQ
  | cons e es ih =>
    intro rs pre sn Q hl hP h hn hQ
    rcases rs with _ | ⟨r, rs⟩
    · cases hl
    rw [List.zip_cons_cons] at h
    rw [h, List.map_append, List.map_cons, List.nodup_append] at hn
    obtain ⟨hn1, hn2, hn3⟩ := hn
    obtain ⟨hn4, hn5⟩ := List.nodup_cons.1 hn2
    have h1 : e ∉ pre.map Prod.fst := fun h => hn3 e h e List.mem_cons_self rfl
    have hu : sn.db.update e g = pre ++ [(e, g r)] ++ es.zip rs := by rw [h, update_mid g h1 hn4]; simp
    refine (C67_bind _ _).2 (hp e r sn _ (by rw [h]; exact lookup_mid h1) (hP r List.mem_cons_self) ?_)
    refine ih rs (pre ++ [(e, g r)]) _ Q (by simpa using hl) (fun r' hr' => hP r' (List.mem_cons_of_mem _ hr')) hu ?_ ?_
    · show ((sn.db.update e g).map Prod.fst).Nodup
      rw [hu]
      simp only [List.map_append, List.map_cons, List.append_assoc, List.cons_append, List.nil_append]
      rw [List.nodup_append]
      exact ⟨hn1, hn2, hn3⟩
    · rw [List.map_cons, List.zip_cons_cons] at hQ
      simpa using hQ

theorem spawnAddAll_wp {sc : Scope} {t : Ty} {v : Bytes} (hv : v.length = t.size) : ∀ (rs : List Fields) {sn : Scene} {Q : List EcsId → Scene → Prop},
    (∀ r ∈ rs, sc.Row r ∧ r.lookup t = none ∧ sc.Allows (r.map Prod.fst ++ [t])) → sn.spawned + rs.length + sc.types.length ≤ 2 ^ 32 →
    (∀ es, Fresh sn es rs.length → Q es ⟨sn.db ++ es.zip (rs.map (· ++ [(t, v)])), sn.dead, sn.spawned + rs.length⟩) →
    (Script.spawnAddAll t v rs).wp sc sn Q := by
  intro rs
  induction rs with
  | nil =>
    intro sn Q _ _ h
    have := h [] ⟨rfl, by simp, by simp⟩
    show Q [] sn
    simpa using this
  | cons r rs ih =>
    intro sn Q hr hn h
    rw [List.length_cons] at hn
    obtain ⟨hr0, hr1, hr2⟩ := hr r List.mem_cons_self
    refine ⟨hr0.nodup, hr0.size, hr0.allows, by omega, fun e h1 h2 => ?_⟩
    refine ⟨r, lookup_mid h1, hr1, hv, hr2, ?_⟩
    have hu : Db.update e (fun r => r ++ [(t, v)]) (sn.db ++ [(e, r)]) = sn.db ++ [(e, r ++ [(t, v)])] := update_mid _ h1 (by simp)
    rw [hu]
    refine (C67_bind _ _).2 (ih (fun r' h' => hr r' (List.mem_cons_of_mem _ h')) (by show sn.spawned + 1 + rs.length + sc.types.length ≤ _; omega) ?_)
    intro es hes
    have hm : ∀ x ∈ es, x ∉ sn.db.map Prod.fst ∧ x ≠ e ∧ x ∉ sn.dead := by
      intro x hx
      obtain ⟨h3, h4⟩ := hes.new x hx
      simp only [List.map_append, List.map_cons, List.map_nil, List.mem_append, List.mem_singleton, not_or] at h3
      exact ⟨h3.1, h3.2, h4⟩
    have := h (e :: es) ⟨by simp [hes.len], List.nodup_cons.2 ⟨fun h3 => (hm e h3).2.1 rfl, hes.nodup⟩, ?_⟩
    · show Q (e :: es) _
      simpa [List.append_assoc, Nat.add_assoc, Nat.add_comm 1] using this
    · intro x hx
      rcases List.mem_cons.1 hx with rfl | hx
      · exact ⟨h1, h2⟩
      · exact ⟨(hm x hx).1, (hm x hx).2.2⟩

/-! ### looking at all entities -/

theorem see_one {e : EcsId} {r : Fields} {t : Ty} {v : Bytes} (h : r.lookup t = some v) : r.see e [.mut t] = some [.value v] := by
  simp [Fields.see, h]

theorem run_nothing {e : EcsId} {r : Fields} {ps : List Param} : r.run ps (fun _ => []) e = r := by
  unfold Fields.run
  split
  · rfl
  · cases ps with
    | nil => rfl
    | cons p ps => cases p <;> rfl

theorem visit_nothing {ps : List Param} (es : List EcsId) (db : Db) : db.visit ps (fun _ => []) es = db := by
  induction es with
  | nil => rfl
  | cons e es ih =>
    show Db.visit ps (fun _ => []) es (db.update e (Fields.run ps (fun _ => []) e)) = db
    rw [Db.update_same fun x _ _ => run_nothing]
    exact ih

theorem got_nothing {ps : List Param} (es : List EcsId) (db : Db) : db.got ps (fun _ => []) es = es.map fun e => (db.lookup e).bind (Fields.see e · ps) := by
  induction es with
  | nil => rfl
  | cons e es ih =>
    show _ :: Db.got ps (fun _ => []) es (db.update e (Fields.run ps (fun _ => []) e)) = _
    rw [Db.update_same fun x _ _ => run_nothing, ih]
    rfl

theorem getAll_wp {sc : Scope} {t : Ty} {es : List EcsId} {n : Nat} {sn : Scene} {Q : Unit → Scene → Prop}
    (h : ∀ e ∈ es, ∃ r v, sn.db.lookup e = some r ∧ r.lookup t = some v) (hQ : Q () sn) : (Script.getAll t es n).wp sc sn Q := by
  refine C67_mono _ (fun _ sn' h => ?_) (C67_times _ (fun _ sn' => sn' = sn) ?_ n (i := 0) rfl)
  · rw [show sn' = sn from h]; exact hQ
  · intro _ sn' hs
    rw [show sn' = sn from hs]
    refine ⟨List.pairwise_singleton _ _, ⟨t, .inl List.mem_cons_self⟩, fun ss i t bs _ h2 => by simp at h2, fun e he => ?_, ?_⟩
    · obtain ⟨r, v, h1, _⟩ := h e he
      refine .inl (Classical.byContradiction fun h2 => ?_)
      rw [lookup_none.2 h2] at h1; cases h1
    · rw [visit_nothing, got_nothing]
      have : (es.map fun e => (sn.db.lookup e).bind (Fields.see e · [.mut t])).all Option.isSome = true := by
        rw [List.all_eq_true]
        intro x hx
        obtain ⟨e, he, rfl⟩ := List.mem_map.1 hx
        obtain ⟨r, v, h1, h2⟩ := h e he
        rw [h1]
        show (Fields.see e r [.mut t]).isSome = true
        rw [see_one h2]; rfl
      simp only [this, if_true]
      rfl

end Ellecs.WorldSpec
