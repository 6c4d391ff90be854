import Verif.Proofs.Opaque
import Verif.Proofs.Panics
import Verif.Proofs.TableTrace
/-!
# Two programs that differ only in their data: the lines are the same
-/
namespace Ellecs.WorldSpec
open World

variable {R : Recoding}

/-- Two worlds with corresponding maps. -/
structure Twins (R : Recoding) (w v : World) (a b : AWorld) : Prop where
  left : Reachable w
  right : Reachable v
  showL : w.Shows a
  showR : v.Shows b
  maps : R.Maps a b

theorem Twins.hasComp {w v : World} {a b : AWorld} (h : Twins R w v a b) : w.HasComp = v.HasComp := by
  funext e c
  refine propext ?_
  have hc : ∀ {w : World} {a : AWorld}, w.Shows a → (w.HasComp e c ↔ a.cell e c ≠ none) := by
    intro w a hs
    unfold HasComp
    constructor
    · rintro ⟨bs, hb⟩; rw [(hs.cell e c bs).2 hb]; exact fun h => by cases h
    · intro hh
      cases hx : a.cell e c with
      | none => exact absurd hx hh
      | some bs => exact ⟨bs, (hs.cell e c bs).1 hx⟩
  rw [hc h.showL, hc h.showR]
  exact maps_cell_none h.maps e c

theorem Twins.row {w v : World} {a b : AWorld} (h : Twins R w v a b) (x : EcsId) : w.Row x ↔ v.Row x := by
  have h1 := h.showL.infoNone h.left.sound.inv (e := x)
  have h2 := h.showR.infoNone h.right.sound.inv (e := x)
  have h3 := h.maps.info x
  have : a.info x = none ↔ b.info x = none := by
    revert h3
    cases a.info x <;> cases b.info x <;> intro h3 <;> cases h3 <;> simp
  rw [h1, h2] at this
  constructor
  · intro hh; exact Classical.byContradiction fun hn => this.2 hn hh
  · intro hh; exact Classical.byContradiction fun hn => this.1 hn hh

theorem Twins.alive {w v : World} {a b : AWorld} (h : Twins R w v a b) (x : EcsId) : w.Alive x ↔ v.Alive x := by
  have : w.isAlive x = v.isAlive x := by
    show w.entities.isAlive x = v.entities.isAlive x
    rw [← h.showL.ents, ← h.showR.ents, h.maps.ents]
  unfold Alive
  rw [this]

theorem Twins.types {w v : World} {a b : AWorld} (h : Twins R w v a b) {t u : Ty} (ht : R.type t u) : w.typeMap t = v.typeMap u := by
  rw [← h.showL.types, ← h.showR.types]
  exact h.maps.types ht

theorem twins_first {w v w' v' : World} {a b a' b' : AWorld} (h : Twins R w v a b) (h' : Twins R w' v' a' b') {t u : Ty} (ht : R.type t u) :
    firstSeen w w' t = firstSeen v v' u := by
  unfold firstSeen
  rw [h.types ht, h'.types ht]

theorem pairs_mem_type {ts us : List Ty} (h : Pairs R.type ts us) {t u : Ty} (ht : R.type t u) : t ∈ ts ↔ u ∈ us := by
  induction h with
  | nil => simp
  | cons hx _ ih => rw [List.mem_cons, List.mem_cons, ih, R.same ht hx]

theorem twins_comers {w v w' v' : World} {a b a' b' : AWorld} (h : Twins R w v a b) (h' : Twins R w' v' a' b') (e : EcsId) {xs ys : List BAct} (hx : Pairs R.Acts xs ys) :
    ∀ {ts us : List Ty}, Pairs R.type ts us → comers w w' e ts xs = comers v v' e us ys := by
  induction hx with
  | nil => intro _ _ _; rfl
  | cons hx _ ih =>
    intro ts us hs
    cases hx with
    | @«with» t u _ _ ht _ =>
      simp only [comers, twins_first h h' ht, ih (.cons ht hs)]
      have := pairs_mem_type hs ht
      by_cases hm : t ∈ ts
      · rw [if_pos hm, if_pos (this.1 hm)]
      · rw [if_neg hm, if_neg (fun hh => hm (this.2 hh))]
    | _ => simp only [comers, ih hs]

/-- The entities in the lines are those with a row. -/
theorem mem_lines {w : World} {x : EcsId} : x ∈ (lines w).flatMap Prod.snd ↔ w.Row x := by
  rw [List.mem_flatMap]
  unfold lines Row
  constructor
  · rintro ⟨l, hl, hx⟩
    obtain ⟨a, ha, rfl⟩ := List.mem_map.1 hl
    obtain ⟨k, hk⟩ := List.mem_iff_getElem?.1 ha
    obtain ⟨r, hr⟩ := List.mem_iff_getElem?.1 hx
    exact ⟨k, r, a, hk, hr⟩
  · rintro ⟨k, r, a, hk, hr⟩
    exact ⟨_, List.mem_map.2 ⟨a, List.mem_of_getElem? hk, rfl⟩, List.mem_of_getElem? hr⟩

theorem Twins.count {w v : World} {a b : AWorld} (h : Twins R w v a b) (hl : w.archetypes.length < 2 ^ 32) (hr : v.archetypes.length < 2 ^ 32) :
    ((lines w).flatMap Prod.snd).length = ((lines v).flatMap Prod.snd).length := by
  refine ((List.perm_ext_iff_of_nodup (lines_proper h.left.sound.inv hl).entities (lines_proper h.right.sound.inv hr).entities).2 ?_).length_eq
  intro x
  rw [mem_lines, mem_lines, h.row]

theorem arrive_count {comps : EcsId → EcsId → Prop} {xs : List EcsId} {L L' : List Line} (h : Arrive comps xs L L') :
    (L'.flatMap Prod.snd).length = xs.length + (L.flatMap Prod.snd).length := by
  induction h with
  | nil => simp
  | cons he _ ih =>
    have := (enters_perm he).length_eq
    rw [List.length_cons] at this ⊢
    omega

theorem comers_prefix (w w' : World) (e : EcsId) {xs ys : List BAct} (h : xs <+: ys) : comers w w' e [] xs <+: comers w w' e [] ys := by
  obtain ⟨zs, rfl⟩ := h
  rw [comers_append]
  exact List.prefix_append _ _

theorem prefix_eq {α : Type} {xs ys zs : List α} (h1 : xs <+: zs) (h2 : ys <+: zs) (hl : xs.length = ys.length) : xs = ys := by
  obtain ⟨a, rfl⟩ := h1
  obtain ⟨b, hb⟩ := h2
  exact (List.append_inj hb hl.symm).1.symm

theorem spawn_id {a : AWorld} {kind : SpawnKind} {xs : List BAct} {e : EcsId} (h : (a.spawn kind xs).1 = .ok e) : a.spawnId.1 = .ok e := by
  unfold AWorld.spawn at h
  split at h
  · cases h
  · rename_i e' a' he
    rw [he]
    split at h
    · cases h
    · exact h

theorem Twins.spawned {w v : World} {a b : AWorld} (h : Twins R w v a b) {k k' : SpawnKind} {xs ys : List BAct} (hk : ChainOk w k xs) (hk' : ChainOk v k' ys)
    {e e' : EcsId} {u u' : World} (hx : spawnWith k xs w = .ok e u) (hy : spawnWith k' ys v = .ok e' u') : e = e' := by
  have hl := h.left.sound
  have hr := h.right.sound
  have h1 := spawn_id ((sim_spawn hl.inv hl.nowrap.ready h.showL hk).ok hx).1
  have h2 := spawn_id ((sim_spawn hr.inv hr.nowrap.ready h.showR hk').ok hy).1
  have := (both_spawnId h.maps).fst
  rw [h1, h2] at this
  injection this

theorem chain_prefix {w : World} {k : SpawnKind} {xs ys : List BAct} (h : ChainOk w k (xs ++ ys)) : ChainOk w k xs :=
  fun e w1 b w2 h1 h2 => (h e w1 b w2 h1 h2).append.1

theorem moves_proper {w w' : World} {e : EcsId} {L L' : List Line} (hl : (L.map Prod.fst).Nodup) (h : Moves w w' e L L') (hp : Proper L') : Proper L := by
  obtain ⟨M, h1, h2⟩ := h
  refine ⟨hl, ?_⟩
  exact ((exits_perm h1).trans (enters_perm h2).symm).symm.nodup hp.entities

/-- Corresponding calls that return do the same to the lines. -/
theorem twins_lines {w v w' v' : World} {a b a' b' : AWorld} (h : Twins R w v a b) (h' : Twins R w' v' a' b') (hp : Proper (lines w)) (hp' : Proper (lines w'))
    (hL : lines w = lines v) {c c' : Call} (hc : R.Calls c c') (ok : c.Ok w) (ok' : c'.Ok v) (h1 : Lines w w' c) (h2 : Lines v v' c') : lines w' = lines v' := by
  have moved : ∀ {e : EcsId} {L : List Line}, (L.map Prod.fst).Nodup → Moves w w' e L (lines w') → Moves v v' e L (lines v') → lines w' = lines v' := by
    intro e L hl m1 m2
    unfold Moves at m2
    rw [← h.hasComp, ← h'.hasComp] at m2
    exact moves_unique (moves_proper hl m1 hp') m1 m2
  have typed : ∀ {e : EcsId} {t u : Ty}, R.type t u →
      (∃ L, Arrive w'.HasComp (firstSeen w w' t) (lines w) L ∧
        ((∃ c, w'.typeMap t = some c ∧ w'.Alive c) ∧ Moves w w' e L (lines w') ∨ (∃ c, w'.typeMap t = some c ∧ ¬ w'.Alive c) ∧ lines w' = L)) →
      (∃ L, Arrive v'.HasComp (firstSeen v v' u) (lines v) L ∧
        ((∃ c, v'.typeMap u = some c ∧ v'.Alive c) ∧ Moves v v' e L (lines v') ∨ (∃ c, v'.typeMap u = some c ∧ ¬ v'.Alive c) ∧ lines v' = L)) → lines w' = lines v' := by
    intro e t u ht
    rintro ⟨L, a1, m1⟩ ⟨M, a2, m2⟩
    rw [← h'.hasComp, ← twins_first h h' ht, ← hL] at a2
    have := arrive_unique hp.lines a1 a2
    subst this
    rcases m1 with ⟨⟨c, t1, l1⟩, m1⟩ | ⟨⟨c, t1, l1⟩, m1⟩ <;> rcases m2 with ⟨⟨d, t2, l2⟩, m2⟩ | ⟨⟨d, t2, l2⟩, m2⟩
    · exact moved (arrive_lines hp.lines a1) m1 m2
    · rw [h'.types ht, t2] at t1; injection t1 with t1; subst t1
      exact absurd ((h'.alive d).1 l1) l2
    · rw [h'.types ht, t2] at t1; injection t1 with t1; subst t1
      exact absurd ((h'.alive d).2 l2) l1
    · rw [m1, m2]
  have dyn : ∀ {e c : EcsId}, ((w.Alive e ∧ w.Alive c) ∧ Moves w w' e (lines w) (lines w') ∨ ¬ (w.Alive e ∧ w.Alive c) ∧ lines w' = lines w) →
      ((v.Alive e ∧ v.Alive c) ∧ Moves v v' e (lines v) (lines v') ∨ ¬ (v.Alive e ∧ v.Alive c) ∧ lines v' = lines v) → lines w' = lines v' := by
    intro e c m1 m2
    rw [← h.alive e, ← h.alive c, ← hL] at m2
    rcases m1 with ⟨l1, m1⟩ | ⟨l1, m1⟩ <;> rcases m2 with ⟨l2, m2⟩ | ⟨l2, m2⟩
    · exact moved hp.lines m1 m2
    · exact absurd l1 l2
    · exact absurd l2 l1
    · rw [m1, m2]
  cases hc with
  | spawn hk hx =>
    obtain ⟨e, u, s1, a1⟩ := h1
    obtain ⟨e', u', s2, a2⟩ := h2
    have := h.spawned ok ok' s1 s2
    subst this
    rw [← h'.hasComp, ← twins_comers h h' e hx .nil, ← hL] at a2
    exact arrive_unique hp.lines a1 a2
  | addComponent e ht _ => exact typed ht h1 h2
  | removeComponent e ht => exact typed ht h1 h2
  | addDynamic e c => exact dyn h1 h2
  | addDynamicWithData e c _ => exact dyn h1 h2
  | removeDynamic e c => exact dyn h1 h2
  | despawn e =>
    rcases h1 with ⟨l1, m1⟩ | ⟨l1, m1⟩ <;> rcases h2 with ⟨l2, m2⟩ | ⟨l2, m2⟩
    · rw [← h.hasComp, ← hL] at m2
      exact exits_unique hp m1 m2
    · exact absurd ((h.alive e).1 l1) l2
    · exact absurd ((h.alive e).2 l2) l1
    · rw [m1, m2, hL]
  | register ht =>
    have h1 : Arrive _ _ _ _ := h1
    have h2 : Arrive _ _ _ _ := h2
    rw [← h'.hasComp, ← twins_first h h' ht, ← hL] at h2
    exact arrive_unique hp.lines h1 h2
  | write e c _ => exact (h1 : lines w' = lines w).trans (hL.trans (h2 : lines v' = lines v).symm)
  | query p _ => exact (h1 : lines w' = lines w).trans (hL.trans (h2 : lines v' = lines v).symm)
  | queryDynamic fs p => exact (h1 : lines w' = lines w).trans (hL.trans (h2 : lines v' = lines v).symm)

/-- So do corresponding calls that panic. -/
theorem twins_panics {w v w' v' : World} {a b a' b' : AWorld} (h : Twins R w v a b) (h' : Twins R w' v' a' b') (hp : Proper (lines w))
    (hl : w'.archetypes.length < 2 ^ 32) (hr : v'.archetypes.length < 2 ^ 32)
    (hL : lines w = lines v) {c c' : Call} (hc : R.Calls c c') (ok : c.Ok w) (ok' : c'.Ok v) (h1 : PanicLines w w' c) (h2 : PanicLines v v' c') : lines w' = lines v' := by
  have hcount := h'.count hl hr
  cases hc with
  | @spawn _ _ xs xs' hk hx =>
    have none_came : ∀ {ys : List EcsId} {L M : List Line} {comps : EcsId → EcsId → Prop}, Arrive comps ys L M → (M.flatMap Prod.snd).length = (L.flatMap Prod.snd).length → M = L := by
      intro ys L M comps ha hn
      have := arrive_count ha
      have : ys = [] := List.eq_nil_of_length_eq_zero (by omega)
      subst this
      cases ha; rfl
    rcases h1 with h1 | ⟨pre, x, post, e, u, s1, _, s2, a1⟩ <;> rcases h2 with h2 | ⟨pre', x', post', e', u', t1, _, t2, a2⟩
    · rw [h1, h2, hL]
    · rw [none_came a2 (by rw [← hcount, h1, hL]), h1, hL]
    · rw [none_came a1 (by rw [hcount, h2, hL]), h2, hL]
    · have := h.spawned (chain_prefix (by rw [← s1]; exact ok)) (chain_prefix (by rw [← t1]; exact ok')) s2 t2
      subst this
      have p1 : comers w w' e [] (pre ++ [x]) <+: comers w w' e [] xs := comers_prefix w w' e ⟨post, by rw [s1]; simp⟩
      have p2 : comers v v' e [] (pre' ++ [x']) <+: comers v v' e [] xs' := comers_prefix v v' e ⟨post', by rw [t1]; simp⟩
      rw [← twins_comers h h' e hx .nil] at p2
      have c1 := arrive_count a1
      have c2 := arrive_count a2
      rw [← hL] at c2
      have := prefix_eq p1 p2 (by omega)
      rw [← this, ← h'.hasComp, ← hL] at a2
      exact arrive_unique hp.lines a1 a2
  | addComponent e ht _ =>
    have h1 : Arrive _ _ _ _ := h1
    have h2 : Arrive _ _ _ _ := h2
    rw [← h'.hasComp, ← twins_first h h' ht, ← hL] at h2
    exact arrive_unique hp.lines h1 h2
  | removeComponent e ht =>
    have h1 : Arrive _ _ _ _ := h1
    have h2 : Arrive _ _ _ _ := h2
    rw [← h'.hasComp, ← twins_first h h' ht, ← hL] at h2
    exact arrive_unique hp.lines h1 h2
  | _ => exact (h1 : lines w' = lines w).trans (hL.trans (h2 : lines v' = lines v).symm)

/-! ## conversations -/

theorem asks_calls {q q' : Ask} (h : R.Asks q q') : (q.asCall = none ∧ q'.asCall = none) ∨ ∃ c c', q.asCall = some c ∧ q'.asCall = some c' ∧ R.Calls c c' := by
  cases h with
  | call hc => exact Or.inr ⟨_, _, rfl, rfl, hc⟩
  | spawn hk hx => exact Or.inr ⟨_, _, rfl, rfl, .spawn hk hx⟩
  | despawn e => exact Or.inr ⟨_, _, rfl, rfl, .despawn e⟩
  | register ht => exact Or.inr ⟨_, _, rfl, rfl, .register ht⟩
  | isAlive e => exact Or.inl ⟨rfl, rfl⟩
  | has e ht => exact Or.inl ⟨rfl, rfl⟩
  | look e c n => exact Or.inl ⟨rfl, rfl⟩

theorem stay_count {w w' : World} (h : TablesStay w w') : w.archetypes.length ≤ w'.archetypes.length := by
  apply Classical.byContradiction
  intro hn
  have hlt : w'.archetypes.length < w.archetypes.length := by omega
  obtain ⟨a', ha, _⟩ := h.tab _ _ (List.getElem?_eq_getElem hlt)
  have := (List.getElem?_eq_some_iff.1 ha).1
  omega

theorem ask_tables {q : Ask} {w w' : World} (h : (∃ x, q.exec w = .ok x w') ∨ ∃ f, q.exec w = .error f w') : w.archetypes.length ≤ w'.archetypes.length := by
  obtain ⟨k1, k2⟩ := ask_asCall q w
  cases hc : q.asCall with
  | none =>
    rcases h with ⟨x, h⟩ | ⟨f, h⟩
    · rw [(k2 hc).1 _ _ h]; exact Nat.le_refl _
    · rw [(k2 hc).2 _ _ h]; exact Nat.le_refl _
  | some c =>
    rcases h with ⟨x, h⟩ | ⟨f, h⟩
    · exact stay_count ((exec_tables c _).ok ((k1 c hc).1 _ _ h))
    · exact stay_count ((exec_tables c _).error ((k1 c hc).2 _ _ h))

theorem talk_tables {w w' : World} {tr : List (Ask × Except Fault Answer)} (h : Talk w tr w') : w.archetypes.length ≤ w'.archetypes.length := by
  induction h with
  | done => exact Nat.le_refl _
  | ok _ h2 _ _ ih => exact Nat.le_trans (ask_tables (Or.inl ⟨_, h2⟩)) ih
  | panic _ h2 _ _ _ _ ih => exact Nat.le_trans (ask_tables (Or.inr ⟨_, h2⟩)) ih

/-- In corresponding conversations the lines stay the same. -/
theorem talk_lines {w w' : World} {tr : List (Ask × Except Fault Answer)} (t1 : Talk w tr w') : ∀ {v v' : World} {tr' : List (Ask × Except Fault Answer)} {a b : AWorld},
    Twins R w v a b → Talk v tr' v' → Pairs R.Asks (tr.map Prod.fst) (tr'.map Prod.fst) → w'.archetypes.length < 2 ^ 32 → v'.archetypes.length < 2 ^ 32 →
    lines w = lines v → lines w' = lines v' := by
  induction t1 with
  | done w =>
    intro v v' tr' a b h t2 hq _ _ hL
    cases t2 with
    | done => exact hL
    | ok _ _ _ _ => cases hq
    | panic _ _ _ _ _ _ => cases hq
  | @ok w w1 w2 q x rest ok1 e1 n1 r1 ih =>
    intro v v' tr' a b h t2 hq hl hr hL
    have hsl := h.left.sound
    have hsr := h.right.sound
    obtain ⟨s1, s2⟩ := (sim_ask hsl.inv hsl.nowrap.ready hsl.idle h.showL ok1).ok e1
    cases t2 with
    | done => cases hq
    | @ok _ v1 _ q' x' rest' ok2 e2 n2 r2 =>
      cases hq with
      | cons hq hqs =>
        obtain ⟨u1, u2⟩ := (sim_ask hsr.inv hsr.nowrap.ready hsr.idle h.showR ok2).ok e2
        have tw : Twins R w1 v1 _ _ := ⟨(ask_reachable h.left ok1).1 _ _ e1 n1, (ask_reachable h.right ok2).1 _ _ e2 n2, s2, u2, (both_ask h.maps hq).2⟩
        have l1 := Nat.lt_of_le_of_lt (talk_tables r1) hl
        have l2 := Nat.lt_of_le_of_lt (talk_tables r2) hr
        have l0 := Nat.lt_of_le_of_lt (ask_tables (Or.inl ⟨_, e1⟩)) l1
        refine ih tw r2 hqs hl hr ?_
        rcases asks_calls hq with ⟨c1, c2⟩ | ⟨c, c', c1, c2, hc⟩
        · rw [((ask_asCall q w).2 c1).1 _ _ e1, ((ask_asCall q' v).2 c2).1 _ _ e2]; exact hL
        · have k1 := ((ask_asCall q w).1 c c1).1 _ _ e1
          have k2 := ((ask_asCall q' v).1 c' c2).1 _ _ e2
          have o1 := ask_callOk ok1 c c1
          have o2 := ask_callOk ok2 c' c2
          exact twins_lines h tw (lines_proper hsl.inv l0) (lines_proper tw.left.sound.inv l1) hL hc o1 o2
            (exec_lines hsl.inv hsl.nowrap hsl.idle o1 l1 k1) (exec_lines hsr.inv hsr.nowrap hsr.idle o2 l2 k2)
    | @panic _ v1 _ q' f' rest' ok2 e2 n2 d2 f2 r2 =>
      cases hq with
      | cons hq hqs =>
        rcases (sim_ask hsr.inv hsr.nowrap.ready hsr.idle h.showR ok2).error e2 with hm | ⟨u1, u2⟩
        · exact absurd hm n2
        · have := (both_ask h.maps hq).1
          rw [s1, u1] at this
          cases this
  | @panic w w1 w2 q f rest ok1 e1 m1 d1 n1 r1 ih =>
    intro v v' tr' a b h t2 hq hl hr hL
    have hsl := h.left.sound
    have hsr := h.right.sound
    obtain ⟨s1, s2⟩ := ((sim_ask hsl.inv hsl.nowrap.ready hsl.idle h.showL ok1).error e1).resolve_left m1
    cases t2 with
    | done => cases hq
    | @ok _ v1 _ q' x' rest' ok2 e2 n2 r2 =>
      cases hq with
      | cons hq hqs =>
        obtain ⟨u1, u2⟩ := (sim_ask hsr.inv hsr.nowrap.ready hsr.idle h.showR ok2).ok e2
        have := (both_ask h.maps hq).1
        rw [s1, u1] at this
        cases this
    | @panic _ v1 _ q' f' rest' ok2 e2 m2 d2 n2 r2 =>
      cases hq with
      | cons hq hqs =>
        obtain ⟨u1, u2⟩ := ((sim_ask hsr.inv hsr.nowrap.ready hsr.idle h.showR ok2).error e2).resolve_left m2
        have lim1 : ¬ Limit f := fun hh => m1 (Or.inl hh)
        have lim2 : ¬ Limit f' := fun hh => m2 (Or.inl hh)
        have tw : Twins R w1 v1 _ _ := ⟨(ask_reachable h.left ok1).2 _ _ e1 lim1 d1 n1, (ask_reachable h.right ok2).2 _ _ e2 lim2 d2 n2, s2, u2, (both_ask h.maps hq).2⟩
        have l1 := Nat.lt_of_le_of_lt (talk_tables r1) hl
        have l2 := Nat.lt_of_le_of_lt (talk_tables r2) hr
        have l0 := Nat.lt_of_le_of_lt (ask_tables (Or.inr ⟨_, e1⟩)) l1
        refine ih tw r2 hqs hl hr ?_
        rcases asks_calls hq with ⟨c1, c2⟩ | ⟨c, c', c1, c2, hc⟩
        · rw [((ask_asCall q w).2 c1).2 _ _ e1, ((ask_asCall q' v).2 c2).2 _ _ e2]; exact hL
        · have k1 := ((ask_asCall q w).1 c c1).2 _ _ e1
          have k2 := ((ask_asCall q' v).1 c' c2).2 _ _ e2
          have o1 := ask_callOk ok1 c c1
          have o2 := ask_callOk ok2 c' c2
          exact twins_panics h tw (lines_proper hsl.inv l0) l1 l2 hL hc o1 o2
            (panic_lines hsl.inv hsl.nowrap tw.left.sound.inv l1 o1 k1 lim1) (panic_lines hsr.inv hsr.nowrap tw.right.sound.inv l2 o2 k2 lim2)

end Ellecs.WorldSpec
