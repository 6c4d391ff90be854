import Verif.Spec.Program
import Verif.Proofs.Shapes
import Verif.Proofs.Limits
import Verif.Props.System
import Verif.Props.Columns
/-!
# Proof of the program logic (C65)
-/
namespace Ellecs
open World

namespace World

/-! ### builders have room -/

theorem withData_len {b b' : Builder} {src : Bytes} {id : EcsId} {w : World} (h : b.withDynamicWithData src id w = .ok b') :
    b'.len ≤ b.len + src.length := by
  unfold Builder.withDynamicWithData at h
  split at h
  · cases h
  · cases h
  · simp only at h
    rename_i m _
    split at h
    · cases h
    · rename_i b1 hr
      split at h
      · cases h
      · split at h
        · cases h
        · rename_i hs hl
          injection h with h; subst h
          have hb1 : b1.len = b.len := by
            split at hr
            · unfold Builder.realloc at hr
              repeat' split at hr
              all_goals first
                | cases hr; done
                | (injection hr with hr; subst hr; rfl)
            · injection hr with hr; subst hr; rfl
          show b1.len + m.comp.layout.size ≤ _
          omega

theorem createArchetype_len {b b' : Builder} {a : Archetype} {w w' : World} (h : b.createArchetype w = .ok (b', a) w') : b'.len = b.len := by
  unfold Builder.createArchetype at h
  obtain ⟨v, w1, h1, h2⟩ := bind_ok h
  injection h1 with h1 h1'; subst h1 h1'
  have hfail : ∀ {α : Type} {f : Fault} {st : List (EcsId × UVec)} {x : α} {w1 w' : World}, failDropping f st w1 = .ok x w' → False := by
    intro α f st x w1 w' h
    unfold failDropping at h
    split at h <;> cases h
  cases hcs : b.createStorages w 0 b.compIds [] with
  | error x => obtain ⟨f, st⟩ := x; rw [hcs] at h2; exact (hfail h2).elim
  | ok st =>
    rw [hcs] at h2
    simp only at h2
    cases hck : Builder.checkedLookup (stableSort EcsId.lt b.compIds).zipIdx (fun _ => none) with
    | error x => rw [hck] at h2; exact (hfail h2).elim
    | ok l =>
      rw [hck] at h2
      simp only at h2
      by_cases hg : idsAgree (stableSort EcsId.lt b.compIds) (stableSort storageLt st) = true
      · rw [if_pos hg] at h2
        injection h2 with h2 h3; injection h2 with h2 _; subst h2; rfl
      · rw [if_neg hg] at h2; exact (hfail h2).elim

theorem build_len {b b' : Builder} {w w' : World} (h : b.build w = .ok b' w') : b'.len = b.len := by
  unfold Builder.build at h
  obtain ⟨v, w1, h1, h⟩ := bind_ok h
  obtain ⟨found, w2, h2, h⟩ := bind_ok h
  cases found with
  | some k =>
    simp only at h
    obtain ⟨_, _, _, h⟩ := bind_ok h
    obtain ⟨_, _, _, h⟩ := bind_ok h
    obtain ⟨_, _, _, h⟩ := bind_ok h
    obtain ⟨_, _, _, h⟩ := bind_ok h
    obtain ⟨_, _, _, h⟩ := bind_ok h
    injection h with h _; rw [h]
  | none =>
    simp only at h
    obtain ⟨_, _, _, h⟩ := bind_ok h
    obtain ⟨⟨b1, a⟩, _, h3, h⟩ := bind_ok h
    obtain ⟨_, _, _, h⟩ := bind_ok h
    obtain ⟨_, _, _, h⟩ := bind_ok h
    obtain ⟨_, _, _, h⟩ := bind_ok h
    injection h with h _; rw [← h]; exact createArchetype_len h3

theorem act_bytes {b b' : Builder} {a : BAct} {w w' : World} (h : b.act a w = .ok b' w') : b'.len ≤ b.len + actBytes a := by
  unfold Builder.act at h
  have h := orDrop_ok h
  cases a with
  | «with» t v =>
    simp only at h
    obtain ⟨id, w1, h1, h⟩ := bind_ok h
    obtain ⟨v, w2, h2, h⟩ := bind_ok h
    exact withData_len (liftE_ok h).1
  | withDynamic id =>
    simp only at h
    obtain ⟨v, w2, h2, h⟩ := bind_ok h
    have h3 := (liftE_ok h).1
    unfold Builder.withDynamic at h3
    repeat' split at h3
    all_goals first
      | cases h3; done
      | (injection h3 with h3; subst h3; exact Nat.le_refl _)
  | withDynamicWithData id v =>
    simp only at h
    obtain ⟨v, w2, h2, h⟩ := bind_ok h
    exact withData_len (liftE_ok h).1
  | build => rw [build_len h]; exact Nat.le_refl _

theorem acts_bytes (as : List BAct) : ∀ {b b' : Builder} {w w' : World}, b.acts as w = .ok b' w' → b'.len ≤ b.len + (as.map actBytes).sum := by
  induction as with
  | nil => intro b b' w w' h; injection h with h h'; subst h h'; exact Nat.le_refl _
  | cons a as ih =>
    intro b b' w w' h
    obtain ⟨b1, w1, h1, h2⟩ := bind_ok h
    have := ih h2
    have := act_bytes h1
    simp only [List.map_cons, List.sum_cons]; omega

theorem mkBuilder_len {kind : SpawnKind} {e : EcsId} {b : Builder} {w w' : World} (h : mkBuilder kind e w = .ok b w') : b.len = 0 := by
  have hnew : ∀ cm, Builder.new e cm w = .ok b w' → b.len = 0 := by
    intro cm h
    unfold Builder.new at h
    split at h <;> (injection h with h _; subst h; rfl)
  cases kind with
  | plain => exact hnew _ h
  | withMeta m => exact hnew _ h
  | capacity n =>
    unfold mkBuilder Builder.withCapacity at h
    simp only at h
    repeat' split at h
    all_goals first
      | cases h; done
      | (injection h with h _; subst h; rfl)

/-- The values of the chain fit into a builder. -/
def Call.Fits : Call → Prop
  | .spawn _ as => 2 * (as.map actBytes).sum < isizeMax
  | _ => True

theorem not_capacity {w : World} (h : Inv w) (hn : w.entities.NoWrap) (hid : Idle w) {c : Call} (hc : c.Ok w) (hf : c.Fits) :
    Tri c.exec w (fun _ _ => True) (fun f _ => f ≠ .builderCapacity) := by
  have nl : ∀ {f : Fault}, Limit f → f ≠ .builderCapacity := by
    rintro f (rfl | rfl | rfl) <;> simp
  cases c with
  | spawn kind as =>
    unfold Call.exec
    rw [tri_bind]
    refine (spawnWith_spec h hn.ready hc).imp (fun _ _ _ => trivial) ?_
    rintro f w' (⟨_, ⟨rfl, _⟩ | ⟨e, rfl, ⟨n, rfl, hl⟩, _⟩ | ⟨e, w1, b, w2, pre, a, post, b1, w3, x1, x2, x3, x4, ⟨hx, _⟩, _⟩⟩ | ⟨hl, _, _⟩)
    · simp
    · simp
    · have hb := acts_bytes pre x4
      rw [mkBuilder_len x2] at hb
      have hsum : (pre.map actBytes).sum + actBytes a ≤ (as.map actBytes).sum := by
        rw [x3, List.map_append, List.sum_append, List.map_cons, List.sum_cons]; omega
      have hco := hc e w1 b w2 x1 x2 pre a post x3 b1 w3 x4
      have hf' : 2 * (as.map actBytes).sum < isizeMax := hf
      rintro rfl
      cases a with
      | «with» t v =>
        rcases hx with ⟨hx, _⟩ | ⟨hx, _⟩ | ⟨_, hx⟩
        · cases hx
        · cases hx
        · have := hx.bound
          have h1 : v.length = t.size := hco
          have h2 : actBytes (.with t v) = v.length := rfl
          omega
      | withDynamic id => rcases hx with ⟨hx, _⟩ | ⟨hx, _⟩ | ⟨hx, _⟩ <;> cases hx
      | withDynamicWithData id v =>
        rcases hx with ⟨hx, _⟩ | ⟨hx, _⟩ | ⟨_, m, hm, hx⟩
        · cases hx
        · cases hx
        · have := hx.bound
          have h1 : m.layout.size ≤ v.length := hco m hm
          have h2 : actBytes (.withDynamicWithData id v) = v.length := rfl
          omega
      | build => exact hx.elim
    · exact nl hl
  | addComponent e t v =>
    refine (addComponent_spec h hn.ready e t hc).imp (fun _ _ _ => trivial) ?_
    rintro f w' (⟨w0, _, ⟨_, ⟨rfl, _⟩ | ⟨rfl, _⟩⟩ | ⟨rfl, _⟩⟩ | ⟨id, w1, g, _, ⟨rfl, _⟩ | ⟨rfl, _⟩ | ⟨hl, _⟩⟩)
    all_goals first | exact nl (by assumption) | simp
  | removeComponent e t =>
    refine (removeComponent_spec h hn.ready e t).imp (fun _ _ _ => trivial) ?_
    rintro f w' (⟨rfl, _⟩ | ⟨rfl, _⟩ | ⟨rfl, _⟩ | ⟨id, w1, g, _, ⟨rfl, _⟩ | ⟨rfl, _⟩ | ⟨hl, _⟩⟩)
    all_goals first | exact nl (by assumption) | simp
  | addDynamic e c =>
    refine (addZst_spec h e c).imp (fun _ _ _ => trivial) ?_
    rintro f w' (⟨_, ⟨rfl, _⟩ | ⟨rfl, _⟩ | ⟨rfl, _⟩ | ⟨rfl, _⟩ | ⟨rfl, _⟩⟩ | ⟨hl, _⟩)
    all_goals first | exact nl (by assumption) | simp
  | addDynamicWithData e c src =>
    refine (addDyn_spec h e c (src := src) ?_).imp (fun _ _ _ => trivial) ?_
    · intro m hl hm
      refine hc m ?_
      rw [infoIs_iff h]
      refine ⟨?_, hm⟩
      rcases getEntityMeta_spec h c with ⟨g1, g2⟩ | ⟨g1, g2⟩ | ⟨g1, g2, g3, g4⟩ | ⟨im, cm, g1, g2, g3, g4, g5⟩
      · have := hl.lt; omega
      · exact absurd hl g2
      · unfold compOf at hm; unfold instOf at g3
        cases hx : (w.metas[c.uindex]?).join with
        | none => rw [hx] at hm; cases hm
        | some y => rw [hx] at g3; cases g3
      · exact (row_iff c).2 ⟨_, _, g5⟩
    rintro f w' (⟨rfl, _⟩ | ⟨rfl, _⟩ | ⟨rfl, _⟩ | ⟨rfl, _⟩ | ⟨hl, _⟩)
    all_goals first | exact nl (by assumption) | simp
  | removeDynamic e c =>
    refine (removeDyn_spec h e c).imp (fun _ _ _ => trivial) ?_
    rintro f w' (⟨rfl, _⟩ | ⟨rfl, _⟩ | ⟨rfl, _⟩ | ⟨hl, _⟩)
    all_goals first | exact nl (by assumption) | simp
  | despawn e =>
    unfold Call.exec
    rw [tri_bind]
    refine (despawn_spec h e).imp (fun _ _ _ => trivial) ?_
    rintro f w' ⟨_, ⟨rfl, _⟩ | ⟨rfl, _⟩ | ⟨rfl, _⟩⟩ <;> simp
  | register t =>
    unfold Call.exec
    rw [tri_bind]
    refine (getOrCreate_spec h hn.ready t).imp (fun _ _ _ => trivial) ?_
    rintro f w' ⟨rfl, _⟩
    simp
  | write e c bs =>
    unfold Call.exec
    simp only [tri_bind, tri_get, tri_liftE]
    rcases getComponentMut_spec h e c with ⟨h1, _⟩ | ⟨h1, _⟩ | ⟨h1, _⟩ | ⟨p, h1, hp⟩
    · rw [h1]; simp
    · rw [h1]; trivial
    · rw [h1]; simp
    · rw [h1]
      simp only [tri_step]
      obtain ⟨m, hm⟩ := hp.info h
      obtain ⟨w', w1, _⟩ := writePtr_spec h hp hm (hc m hm)
      rw [w1]
      trivial
  | query ps b =>
    unfold Call.exec
    rw [tri_bind]
    unfold Tri World.query
    cases hf : allFetches w ps with
    | none => exact trivial
    | some fs =>
      simp only
      rcases acquireAllStatic_spec (w := w) fs (ls := w.locks) (base := []) (done := []) hid h.lock.range with
        ⟨new, ls', a1, _⟩ | ⟨e, ls', pre, f, post, new, a1, a2, a3, a4, _⟩
      · rw [a1]; exact trivial
      · rw [a1]
        obtain ⟨id, _, ⟨rfl, _⟩ | ⟨i, _, ⟨rfl, _⟩ | ⟨rfl, _⟩⟩⟩ := a4 <;> simp
  | queryDynamic fs b =>
    unfold Call.exec
    rw [tri_bind]
    unfold Tri World.queryDynamic
    rcases acquireAllDyn_spec (w := w) fs (ls := w.locks) (base := []) (done := []) false hid h.lock.range with
      ⟨new, ls', a1, _⟩ | ⟨e, ls', pre, f, post, new, a1, a2, a3, a4, _⟩
    · rw [a1]; exact trivial
    · rw [a1]
      obtain ⟨id, _, ⟨rfl, _⟩ | ⟨i, _, ⟨rfl, _⟩ | ⟨rfl, _⟩⟩⟩ := a4 <;> simp

/-! ### the obligations of callers -/

theorem actsOk_callsOk (xs : List BAct) : ∀ {w : World} {a : AWorld} {b : Builder} {d : AWorld.Draft} (_ : Inv w) (_ : w.Ready)
    (_ : w.Shows a) (_ : Drafts w b d) (_ : AWorld.ActsOk d xs a), CallsOk w b xs := by
  induction xs with
  | nil =>
    intro w a b d _ _ _ _ _ pre x post e
    cases pre <;> cases e
  | cons x xs ih =>
    intro w a b d h hn ha hd hx
    obtain ⟨hx1, hx2⟩ := hx
    have hc : CallOk w b x := by
      cases x with
      | «with» t v => exact hx1
      | withDynamic c => trivial
      | withDynamicWithData c v => exact fun m hm => hx1 m ((ha.info c m).2 hm)
      | build =>
        have hr : ¬ w.Row b.entity := by rw [hd.entity]; exact (ha.infoNone h).1 hx1.1
        refine ⟨hr, ?_⟩
        rw [((hd.vals.resolve_right hr).1).packed.ids]; exact hx1.2
    refine CallsOk.cons hc ?_
    intro b1 w1 hr
    obtain ⟨d1, e1, e2, e3, e4, e5⟩ := (bsim_act h hn ha hd hc).ok hr
    rw [pair_eq e1] at hx2
    exact ih e3 e4 e2 e5 hx2

theorem chainOk_of {w : World} {a : AWorld} (h : Inv w) (hn : w.Ready) (ha : w.Shows a) {kind : SpawnKind} {xs : List BAct}
    (hx : ∀ e a', a.spawnId = (.ok e, a') → AWorld.ActsOk ⟨e, AWorld.metaOf kind, []⟩ xs a') : ChainOk w kind xs := by
  intro e w1 b w2 h1 h2
  obtain ⟨s', rfl, i1, n1, l1, f1, k1, u1, m1⟩ := (spawnId_spec h hn).ok h1
  obtain ⟨r, rfl, p1, p2, p3, p4⟩ := (mkBuilder_spec i1 kind e).ok h2
  have i2 : Inv { w with entities := s', reuse := r } := i1.withReuse p4
  have hle : s'.Live e := (l1 e).2 (Or.inr rfl)
  have hnr : ¬ World.Row { w with entities := s', reuse := r } e := (i2.inst_none hle).1 m1
  have hb0 : BOk { w with entities := s', reuse := r } b [] :=
    ⟨p1, (by intro p hp; cases hp), by rw [p2]; exact hle, by rw [p2]; exact hnr⟩
  have hd : Drafts { w with entities := s', reuse := r } b ⟨e, AWorld.metaOf kind, []⟩ :=
    ⟨p1.blk, p2, Or.inl ⟨hb0, by rw [p3, metaOf_eq]⟩⟩
  have hs : w.entities.spawn = (.ok e, s') := by
    unfold spawnId at h1
    cases hs : w.entities.spawn with
    | mk r s =>
      rw [hs] at h1
      cases r with
      | error f => simp only at h1; cases h1
      | ok y =>
        simp only [EStateM.Result.ok.injEq] at h1
        obtain ⟨rfl, x2⟩ := h1
        have : s = s' := congrArg World.entities x2
        rw [this]
  have hs1 : Shows { w with entities := s' } { a with ents := s' } := by
    refine ⟨rfl, ha.types, ?_, ha.cell, ha.used, ha.lock⟩
    intro x m
    rw [infoIs_iff i1]
    show a.info x = some m ↔ _
    rw [ha.info, infoIs_iff h]
    exact Iff.rfl
  refine actsOk_callsOk xs i2 n1.1 (hs1.reuse r w.log) hd (hx e _ ?_)
  unfold AWorld.spawnId
  rw [ha.ents, hs]

theorem callOk_of {w : World} {a : AWorld} (h : Inv w) (hn : w.Ready) (ha : w.Shows a) {s : Nat} {c : Call} (hc : a.CallOk s c) :
    c.Ok w ∧ c.Within s ∧ c.Fits := by
  cases c with
  | spawn kind xs => exact ⟨chainOk_of h hn ha hc.acts, hc.small, hc.bytes⟩
  | addComponent e t v => exact ⟨hc.1, hc.2, trivial⟩
  | removeComponent e t => exact ⟨trivial, hc, trivial⟩
  | register t => exact ⟨trivial, hc, trivial⟩
  | addDynamicWithData e c v => exact ⟨fun m hm => hc m ((ha.info c m).2 hm), trivial, trivial⟩
  | write e c v => exact ⟨fun m hm => hc m ((ha.info c m).2 hm), trivial, trivial⟩
  | _ => exact ⟨trivial, trivial, trivial⟩

theorem askOk_of {w : World} {a : AWorld} (h : Inv w) (hn : w.Ready) (ha : w.Shows a) {s : Nat} {q : Ask} (hq : a.AskOk s q) :
    q.Ok w ∧ ∀ c, q.asCall = some c → c.Ok w ∧ c.Within s ∧ c.Fits := by
  cases q with
  | call c =>
    have := callOk_of h hn ha hq
    refine ⟨this.1, ?_⟩
    intro c' hc'; cases hc'; exact this
  | spawn kind xs =>
    have := callOk_of h hn ha (c := .spawn kind xs) hq
    refine ⟨this.1, ?_⟩
    intro c' hc'; cases hc'; exact this
  | despawn e => exact ⟨trivial, by intro c' hc'; cases hc'; exact ⟨trivial, trivial, trivial⟩⟩
  | register t => exact ⟨trivial, by intro c' hc'; cases hc'; exact ⟨trivial, hq, trivial⟩⟩
  | isAlive e => exact ⟨trivial, by intro c' hc'; cases hc'⟩
  | has t e => exact ⟨trivial, by intro c' hc'; cases hc'⟩
  | look e c n => exact ⟨fun m hm => hq m ((ha.info c m).2 hm), by intro c' hc'; cases hc'⟩

/-- A question runs like the call `asCall`, or changes nothing. -/
theorem ask_asCall (q : Ask) (w : World) :
    (∀ c, q.asCall = some c → (∀ x w', q.exec w = .ok x w' → c.exec w = .ok () w') ∧ (∀ f w', q.exec w = .error f w' → c.exec w = .error f w')) ∧
    (q.asCall = none → (∀ x w', q.exec w = .ok x w' → w' = w) ∧ (∀ f w', q.exec w = .error f w' → w' = w)) := by
  have key : ∀ {α : Type} (x : M α) (g : α → Answer),
      (∀ y w', (do let v ← x; pure (g v) : M Answer) w = .ok y w' → (do let _ ← x : M Unit) w = .ok () w') ∧
      (∀ f w', (do let v ← x; pure (g v) : M Answer) w = .error f w' → (do let _ ← x : M Unit) w = .error f w') := by
    intro α x g
    refine ⟨fun y w' h => ?_, fun f w' h => ?_⟩
    · obtain ⟨v, h1, _⟩ := exec_map_ok h
      exact exec_map_of_ok (g := fun _ => ()) h1
    · exact exec_map_of_error (g := fun _ => ()) (exec_map_error h)
  have key2 : ∀ {α : Type} (g : World → Except Fault α) (k : α → Answer),
      (∀ x w', (do let v ← (do let w ← get; liftE (g w) : M α); pure (k v) : M Answer) w = .ok x w' → w' = w) ∧
      (∀ f w', (do let v ← (do let w ← get; liftE (g w) : M α); pure (k v) : M Answer) w = .error f w' → w' = w) := by
    intro α g k
    refine ⟨fun x w' h => ?_, fun f w' h => ?_⟩
    · obtain ⟨v, h1, _⟩ := exec_map_ok h
      exact look_same.1 v w' h1
    · exact look_same.2 f w' (exec_map_error h)
  cases q with
  | call c =>
    refine ⟨?_, by intro h; cases h⟩
    intro c' hc'; cases hc'
    refine ⟨fun x w' h => ?_, fun f w' h => exec_map_error (g := fun _ => Answer.unit) h⟩
    obtain ⟨v, h1, _⟩ := exec_map_ok (g := fun _ => Answer.unit) h
    exact h1
  | spawn kind acts => exact ⟨by intro c' hc'; cases hc'; exact key (spawnWith kind acts) Answer.id, by intro h; cases h⟩
  | despawn e => exact ⟨by intro c' hc'; cases hc'; exact key (World.despawn e) Answer.bool, by intro h; cases h⟩
  | register t => exact ⟨by intro c' hc'; cases hc'; exact key (getOrCreate t) Answer.id, by intro h; cases h⟩
  | isAlive e => exact ⟨(by intro c' hc'; cases hc'), fun _ => key2 (fun w => w.isAlive e) Answer.bool⟩
  | has t e => exact ⟨(by intro c' hc'; cases hc'), fun _ => key2 (fun w => w.hasComponent t e) Answer.bool⟩
  | look e c n => exact ⟨(by intro c' hc'; cases hc'), fun _ => key2 (fun w => w.look e c n) Answer.value⟩

end World

namespace WorldSpec

/-! ### one step -/

/-- What is known of the tables while the program logic speaks about the maps. -/
structure Run (s : Nat) (S : List (List EcsId)) (w : World) (a : AWorld) : Prop where
  reach : Reachable w
  shows : w.Shows a
  sizes : ∀ m, some m ∈ w.metas → m.comp.layout.size ≤ s
  covers : Covers S w

theorem Run.roomy {s : Nat} {S : List (List EcsId)} {w : World} {a : AWorld} (h : Run s S w a) (hs : s < 2 ^ 29) : w.Roomy := by
  refine roomy_of h.reach.sound.inv h.sizes h.reach.caps.2 ?_ ?_
  · unfold isizeMax; omega
  · unfold isizeMax
    have : max 4 (2 * 2 ^ 32) = 2 ^ 33 := by decide
    rw [this]
    omega

/-- Same tables, metadata and entities: what a loop leaves. -/
theorem Run.shape {s : Nat} {S : List (List EcsId)} {w u : World} {a b : AWorld} (h : Run s S w a) (hu : Reachable u) (hs : SameShape w u) (hb : u.Shows b) : Run s S u b := by
  refine ⟨hu, hb, ?_, ?_⟩
  · have : u.metas = w.metas := (congrArg World.metas (show w.blank = u.blank from hs)).symm
    rw [this]; exact h.sizes
  · have h1 : w.archetypes.map World.Archetype.blank = u.archetypes.map World.Archetype.blank := congrArg World.archetypes (show w.blank = u.blank from hs)
    intro t ht
    have h2 : World.Archetype.blank t ∈ u.archetypes.map World.Archetype.blank := List.mem_map_of_mem ht
    rw [← h1] at h2
    obtain ⟨t0, h3, h4⟩ := List.mem_map.1 h2
    obtain ⟨l, h5, h6⟩ := h.covers t0 h3
    have : t0.compIds = t.compIds := (congrArg Archetype.compIds h4 : _)
    exact ⟨l, h5, fun c => by rw [h6, this]⟩

/-- A call of the program: what it cannot end with, and what it changes at most. -/
theorem call_step {s : Nat} {S : List (List EcsId)} (hs : s < 2 ^ 29) {w : World} {a : AWorld} (h : Run s S w a) {c : Call} (hc : c.Ok w ∧ c.Within s ∧ c.Fits) :
    Tri c.exec w (fun _ w' => (∀ m, some m ∈ w'.metas → m.comp.layout.size ≤ s) ∧ TablesNeeded w w')
      (fun f w' => ((∀ u, f ≠ .ub u) ∧ f ≠ .fuel ∧ ¬ OutOfMemory f) ∧ (∀ m, some m ∈ w'.metas → m.comp.layout.size ≤ s) ∧ (f ≠ .deadlock → TablesNeeded w w')) := by
  have hw := h.reach.sound
  have t1 := exec_genstep hc.2.1 w
  have t2 := exec_needed hw.inv hw.nowrap hw.idle hc.1
  have t3 := not_limit hw.inv hw.nowrap.ready (gs := []) hw.idle (h.roomy hs) hc.1 hc.2.1 (by unfold isizeMax; omega)
  have t4 := not_capacity hw.inv hw.nowrap hw.idle hc.1 hc.2.2
  unfold Tri at *
  cases hx : c.exec w with
  | ok y w' =>
    rw [hx] at t1 t2
    exact ⟨t1.1.metas h.sizes, t2⟩
  | error f w' =>
    rw [hx] at t1 t2 t3 t4
    have t5 := C61_calls (C61_covers h.reach) hc.1 hx
    exact ⟨⟨t5.1, t5.2, fun hh => hh.elim t3 t4⟩, t1.1.metas h.sizes, fun hd => t2 (fun hh => hh.elim t3 hd)⟩

theorem isAlive_error {s : Entities} {e : EcsId} {f : Fault} (h : s.isAlive e = .error f) : f = .noGeneration := by
  unfold Entities.isAlive at h
  split at h
  · injection h with h; exact h.symm
  · cases h

/-- What a question about the world that changes nothing can end with. -/
theorem look_error {a : AWorld} {q : Ask} (hq : q.asCall = none) {f : Fault} (h : (a.ask q).1 = .error f) :
    f = .noGeneration ∨ f = .indexOob := by
  have hmap : ∀ {α : Type} {x : Except Fault α} {g : α → Answer}, x.map g = .error f → x = .error f := by
    intro α x g h
    cases x with
    | ok v => cases h
    | error f' => injection h with h; rw [h]
  cases q with
  | call c => cases hq
  | spawn k xs => cases hq
  | despawn e => cases hq
  | register t => cases hq
  | isAlive e => exact Or.inl (isAlive_error (hmap h))
  | has t e =>
    have h := hmap h
    unfold AWorld.hasComponent at h
    repeat' split at h
    all_goals first
      | cases h; done
      | (injection h with h; subst h; first | exact Or.inl (isAlive_error (by assumption)) | exact Or.inr rfl | exact Or.inl rfl)
  | look e c n =>
    have h := hmap h
    unfold AWorld.look at h
    repeat' split at h
    all_goals first
      | cases h; done
      | (injection h with h; subst h; first | exact Or.inl (isAlive_error (by assumption)) | exact Or.inr rfl)

theorem needed_covers {S : List (List EcsId)} {w w' : World} {a : AWorld} (hi : Inv w') (ha : w'.Shows a) (hn : TablesNeeded w w') (hc : Covers S w)
    {T : List (List EcsId)} (hS : a.Shaped (T ++ S)) : Covers (T ++ S) w' := by
  refine hn.covers (hc.mono fun l hl => List.mem_append_right _ hl) ?_
  intro x hx
  obtain ⟨m, e1, _⟩ := ha.infoRow hi hx
  obtain ⟨l, h1, h2⟩ := hS x (by rw [e1]; simp)
  refine ⟨l, h1, fun c => (h2 c).trans ?_⟩
  constructor
  · intro hne
    cases hcell : a.cell x c with
    | none => exact absurd hcell hne
    | some bs => exact ⟨bs, (ha.cell x c bs).1 hcell⟩
  · rintro ⟨bs, hb⟩
    rw [(ha.cell x c bs).2 hb]; simp

theorem ask_step {s : Nat} {S : List (List EcsId)} (hs : s < 2 ^ 29) {w : World} {a : AWorld} (h : Run s S w a) {q : Ask} (hq : a.AskOk s q)
    (hd : (a.ask q).1 ≠ .error .deadlock) (hf : (a.ask q).2.NoFull) {T : List (List EcsId)} (hT : (a.ask q).2.Shaped (T ++ S)) :
    (∃ y w1, q.exec w = .ok y w1 ∧ (a.ask q).1 = .ok y ∧ Run s (T ++ S) w1 (a.ask q).2) ∨
    (∃ f w1, q.exec w = .error f w1 ∧ Caught f ∧ (a.ask q).1 = .error f ∧ Run s (T ++ S) w1 (a.ask q).2) := by
  have hw := h.reach.sound
  obtain ⟨hok, hcall⟩ := askOk_of hw.inv hw.nowrap.ready h.shows hq
  have hal := C57_call h.reach h.shows hok
  have hreach := ask_reachable h.reach hok
  have hfull : ∀ w' : World, w'.Shows (a.ask q).2 → w'.NoFullSlot := by
    intro w' hw'
    unfold NoFullSlot
    rw [← hw'.ents]; exact hf
  obtain ⟨as1, as2⟩ := ask_asCall q w
  cases hx : q.exec w with
  | ok y w1 =>
    rw [hx] at hal
    obtain ⟨e1, e2⟩ := hal
    have hr := hreach.1 y w1 hx (hfull _ e2)
    suffices hh : (∀ m, some m ∈ w1.metas → m.comp.layout.size ≤ s) ∧ TablesNeeded w w1 from
      Or.inl ⟨y, w1, rfl, e1, hr, e2, hh.1, needed_covers hr.sound.inv e2 hh.2 h.covers hT⟩
    cases hc : q.asCall with
    | none =>
      have := (as2 hc).1 y w1 hx
      subst this
      exact ⟨h.sizes, .refl _⟩
    | some c => exact (call_step hs h (hcall c hc)).ok ((as1 c hc).1 y w1 hx)
  | error f w1 =>
    rw [hx] at hal
    have hmem : ¬ OutOfMemory f ∧ (∀ u, f ≠ .ub u) ∧ f ≠ .fuel := by
      cases hc : q.asCall with
      | none =>
        -- nothing is changed
        have hfe : f = .noGeneration ∨ f = .indexOob := by
          refine look_error (a := a) hc ?_
          rcases hal with hal | hal
          · exfalso
            revert hx
            have hlook : ∀ {α : Type} {g : World → Except Fault α} {k : α → Answer} {r : Except Fault α}, g w = r → (∀ f, r = .error f → ¬ OutOfMemory f) →
                (do let v ← (do let w ← get; liftE (g w) : M α); pure (k v) : M Answer) w = .error f w1 → False := by
              intro α g k r hg hr hh
              have := exec_map_error hh
              have this : (match g w with | .ok a => EStateM.Result.ok a w | .error f => .error f w) = .error f w1 := this
              rw [hg] at this
              cases r with
              | ok v => cases this
              | error f' =>
                injection this with this _
                subst this
                exact hr _ rfl hal
            have hno : ∀ f', f' = Fault.noGeneration ∨ f' = .indexOob → ¬ OutOfMemory f' := by
              rintro f' (rfl | rfl) <;> rintro ((hh | hh | hh) | hh) <;> cases hh
            cases q with
            | call c => cases hc
            | spawn k xs => cases hc
            | despawn e => cases hc
            | register t => cases hc
            | isAlive e =>
              exact hlook (g := fun w => w.isAlive e) (k := Answer.bool) rfl (fun f' hf' => hno f' (Or.inl (isAlive_error hf')))
            | has t e =>
              refine hlook (g := fun w => w.hasComponent t e) (k := Answer.bool) (has_eq hw.inv h.shows t e) (fun f' hf' => hno f' ?_)
              exact look_error (a := a) (q := .has t e) rfl (by show (a.hasComponent t e).map _ = _; rw [hf']; rfl)
            | look e c n =>
              refine hlook (g := fun w => w.look e c n) (k := Answer.value) (look_eq hw.inv h.shows hok) (fun f' hf' => hno f' ?_)
              exact look_error (a := a) (q := .look e c n) rfl (by show (a.look e c).map _ = _; rw [hf']; rfl)
          · exact hal.1
        rcases hfe with rfl | rfl
        · refine ⟨?_, by simp, by simp⟩
          rintro ((hh | hh | hh) | hh) <;> cases hh
        · refine ⟨?_, by simp, by simp⟩
          rintro ((hh | hh | hh) | hh) <;> cases hh
      | some c =>
        obtain ⟨⟨k1, k2, k3⟩, _⟩ := (call_step hs h (hcall c hc)).error ((as1 c hc).2 f w1 hx)
        exact ⟨k3, k1, k2⟩
    obtain ⟨e1, e2⟩ := hal.resolve_left hmem.1
    have hdl : f ≠ .deadlock := by rintro rfl; exact hd e1
    have hr := hreach.2 f w1 hx (fun hh => hmem.1 (Or.inl hh)) hdl (hfull _ e2)
    suffices hh : (∀ m, some m ∈ w1.metas → m.comp.layout.size ≤ s) ∧ TablesNeeded w w1 from
      Or.inr ⟨f, w1, rfl, ⟨hmem.2.1, hmem.2.2, hdl, hmem.1⟩, e1, hr, e2, hh.1, needed_covers hr.sound.inv e2 hh.2 h.covers hT⟩
    cases hc : q.asCall with
    | none =>
      have := (as2 hc).2 f w1 hx
      subst this
      exact ⟨h.sizes, .refl _⟩
    | some c =>
      have := ((call_step hs h (hcall c hc)).error ((as1 c hc).2 f w1 hx)).2
      exact ⟨this.1, this.2 hdl⟩

/-! ### queries -/

theorem query_exec {ps : List Param} {p : Bool} {w : World} : (Call.query ps p).exec w =
    (match query ps w with
     | .ok q v => dropGuards p q.guards v
     | .error f v => .error f v) := by
  show EStateM.bind (query ps) _ w = _
  unfold EStateM.bind
  cases query ps w <;> rfl

theorem queryDynamic_exec {fs : List Fetch} {p : Bool} {w : World} : (Call.queryDynamic fs p).exec w =
    (match queryDynamic fs w with
     | .ok q v => dropGuards p q.guards v
     | .error f v => .error f v) := by
  show EStateM.bind (queryDynamic fs) _ w = _
  unfold EStateM.bind
  cases queryDynamic fs w <;> rfl

/-- Whether a query can be made, and what is left if not. -/
theorem query_step {s : Nat} {S : List (List EcsId)} (hs : s < 2 ^ 29) {w : World} {a : AWorld} (h : Run s S w a) (ps : List Param) :
    (∃ q v, query ps w = .ok q v ∧ (a.query ps false).1 = .ok ()) ∨
    ∃ f w1, query ps w = .error f w1 ∧ (a.query ps false).1 = .error f ∧ (f ≠ .deadlock → Caught f ∧ Run s S w1 (a.query ps false).2) := by
  have hw := h.reach.sound
  have t1 := sim_query hw.inv hw.idle h.shows ps false
  have t2 := call_step hs h (c := .query ps false) ⟨trivial, trivial, trivial⟩
  have hx := query_exec (ps := ps) (p := false) (w := w)
  cases hq : query ps w with
  | ok q v =>
    rw [hq] at hx
    exact Or.inl ⟨q, v, rfl, (t1.ok hx).1⟩
  | error f w1 =>
    rw [hq] at hx
    obtain ⟨⟨k1, k2, k3⟩, k4, _⟩ := t2.error hx
    obtain ⟨e1, e2⟩ := (t1.error hx).resolve_left k3
    have hsame : w1.entities = w.entities ∧ w1.archetypes = w.archetypes := by
      unfold World.query at hq
      repeat' split at hq
      all_goals first
        | cases hq; done
        | (injection hq with _ hq; subst hq; exact ⟨rfl, rfl⟩)
    refine Or.inr ⟨f, w1, rfl, e1, fun hd => ⟨⟨k1, k2, hd, k3⟩, ?_, e2, k4, ?_⟩⟩
    · refine .panic (.query ps false) f h.reach trivial hx (fun hh => k3 (Or.inl hh)) hd ?_
      unfold NoFullSlot
      rw [hsame.1]; exact hw.nowrap
    · unfold Covers
      rw [hsame.2]; exact h.covers

theorem queryDynamic_step {s : Nat} {S : List (List EcsId)} (hs : s < 2 ^ 29) {w : World} {a : AWorld} (h : Run s S w a) (fs : List Fetch) :
    (∃ q v, queryDynamic fs w = .ok q v ∧ (a.lockAll false fs false).1 = .ok ()) ∨
    ∃ f w1, queryDynamic fs w = .error f w1 ∧ (a.lockAll false fs false).1 = .error f ∧
      (f ≠ .deadlock → Caught f ∧ Run s S w1 (a.lockAll false fs false).2) := by
  have hw := h.reach.sound
  have t1 := sim_queryDynamic hw.inv hw.idle h.shows fs false
  have t2 := call_step hs h (c := .queryDynamic fs false) ⟨trivial, trivial, trivial⟩
  have hx := queryDynamic_exec (fs := fs) (p := false) (w := w)
  cases hq : queryDynamic fs w with
  | ok q v =>
    rw [hq] at hx
    exact Or.inl ⟨q, v, rfl, (t1.ok hx).1⟩
  | error f w1 =>
    rw [hq] at hx
    obtain ⟨⟨k1, k2, k3⟩, k4, _⟩ := t2.error hx
    obtain ⟨e1, e2⟩ := (t1.error hx).resolve_left k3
    have hsame : w1.entities = w.entities ∧ w1.archetypes = w.archetypes := by
      unfold World.queryDynamic at hq
      repeat' split at hq
      all_goals first
        | cases hq; done
        | (injection hq with _ hq; subst hq; exact ⟨rfl, rfl⟩)
    refine Or.inr ⟨f, w1, rfl, e1, fun hd => ⟨⟨k1, k2, hd, k3⟩, ?_, e2, k4, ?_⟩⟩
    · refine .panic (.queryDynamic fs false) f h.reach trivial hx (fun hh => k3 (Or.inl hh)) hd ?_
      unfold NoFullSlot
      rw [hsame.1]; exact hw.nowrap
    · unfold Covers
      rw [hsame.2]; exact h.covers

/-! ### looking entities up -/

theorem allFetches_types {w u : World} (h : u.typeMap = w.typeMap) (ps : List Param) : allFetches u ps = allFetches w ps := by
  induction ps with
  | nil => rfl
  | cons p ps ih =>
    unfold allFetches
    rw [ih]
    have : p.fetchType u = p.fetchType w := by cases p <;> simp only [Param.fetchType, h]
    rw [this]

theorem acquire_look {w u : World} (h : u.lockLookup = w.lockLookup) (fs : List Fetch) : ∀ (gs : List Guard) (ls : List RwLock),
    acquireAllStatic u gs ls fs = acquireAllStatic w gs ls fs := by
  induction fs with
  | nil => intro gs ls; rfl
  | cons f fs ih =>
    intro gs ls
    unfold acquireAllStatic
    have : f.acquireStatic u ls = f.acquireStatic w ls := by cases f <;> simp only [Fetch.acquireStatic, h]
    rw [this]
    split
    · rfl
    · exact ih _ _

/-- A query of a world with the same shape and locks. -/
theorem query_shape {w u : World} (h : SameShape w u) (hl : u.locks = w.locks) {ps : List Param} {q : StaticQuery} {ls : List RwLock}
    (hq : query ps w = .ok q { w with locks := ls }) : query ps u = .ok q { u with locks := ls } := by
  have hlk : u.lockLookup = w.lockLookup := (congrArg World.lockLookup (show w.blank = u.blank from h)).symm
  unfold World.query at *
  rw [allFetches_types (sameShape_types h)]
  cases hf : allFetches w ps with
  | none =>
    rw [hf] at hq
    injection hq with h1 h2
    have : w.locks = ls := congrArg World.locks h2
    simp only
    rw [← h1, ← this, ← hl]
  | some fs =>
    rw [hf] at hq
    simp only at hq ⊢
    rw [acquire_look hlk, hl]
    cases ha : acquireAllStatic w [] w.locks fs with
    | error x =>
      obtain ⟨f, l⟩ := x
      rw [ha] at hq; cases hq
    | ok x =>
      obtain ⟨gs, l⟩ := x
      rw [ha] at hq
      injection hq with h1 h2
      have : l = ls := congrArg World.locks h2
      simp only
      rw [h1, this]

/-- `get` for one entity after the other. -/
theorem visit_spec {w : World} {ps : List Param} {q : StaticQuery} {ls : List RwLock} (hq : query ps w = .ok q { w with locks := ls })
    {body : List Found → List (Option Bytes)} (hb : Prog.VisitTyped ps body) (es : List EcsId) : ∀ {u : World} {a : AWorld} (h : List Found),
    Reachable u → SameShape w u → u.locks = w.locks → u.Shows a →
    ∃ u', Visit q body es { u with locks := ls } h { u' with locks := ls } (a.visit ps body es h).1 ∧ Reachable u' ∧ SameShape w u' ∧ u'.locks = w.locks ∧
      u'.Shows (a.visit ps body es h).2 := by
  induction es with
  | nil => intro u a h hu hs hl ha; exact ⟨u, .done, hu, hs, hl, ha⟩
  | cons e es ih =>
    intro u a h hu hs hl ha
    have hiu := hu.sound.inv
    have hq' := query_shape hs hl hq
    have hsp := get_spec hiu ⟨u.locks, rfl, rfl⟩ hq' e
    have hent : a.ents = u.entities := ha.ents
    unfold AWorld.visit AWorld.isAlive
    rw [hent]
    cases hal : u.entities.isAlive e with
    | error f =>
      have := isAlive_error hal
      subst this
      refine ⟨u, .panic ?_ ⟨by simp, by simp, by simp, ?_⟩, hu, hs, hl, ha⟩
      · unfold StaticQuery.get World.isAlive
        simp only [hal]
      · rintro ((hh | hh | hh) | hh) <;> cases hh
    | ok y =>
      simp only
      have hne : ¬ (q.get { u with locks := ls } e = .error .noGeneration ∧ u.entities.generations.length ≤ e.uindex) := by
        rintro ⟨_, hle⟩
        unfold Entities.isAlive at hal
        rw [List.getElem?_eq_none hle] at hal
        cases hal
      obtain ⟨r, r1, r2, r3⟩ := hsp.resolve_left hne
      rw [← row_isSome hiu ha] at r2
      cases r with
      | none =>
        have : a.row ps e = none := by
          cases hrow : a.row ps e with
          | none => rfl
          | some ss => rw [hrow] at r2; exact absurd (r2.2 rfl) (by simp)
        rw [this]
        obtain ⟨u', v1, v2⟩ := ih (none :: h) hu hs hl ha
        exact ⟨u', .miss r1 v1, v2⟩
      | some items =>
        have hd := r3 items rfl
        have hrow : u.Row e := ((row_isSome hiu ha).1 (r2.1 rfl)).1
        obtain ⟨ss, s1, s2⟩ := readRow_eq hiu ha hd
        rw [row_eq hiu ha hrow, s2]
        simp only
        obtain ⟨u1, k1, k2, ⟨k3, k4⟩, k5⟩ := storeAll_spec _ hu ha (targets_spec hiu ha hd (hb (some ss :: h)))
        obtain ⟨u', v1, v2⟩ := ih (some ss :: h) k2 (SameShape.trans hs k3) (k4.trans hl) k5
        exact ⟨u', .hit r1 s1 (k1 ls) v1, v2⟩

/-! ### the logic is sound -/

theorem wp_sound {α : Type} {s : Nat} (hs : s < 2 ^ 29) (p : Prog α) : ∀ {S : List (List EcsId)} {w : World} {a : AWorld} {Q : List (List EcsId) → α → AWorld → Prop},
    Run s S w a → p.wp s S a Q → ∃ x w' S' a', Exec p w x w' ∧ Run s S' w' a' ∧ Q S' x a' := by
  induction p with
  | done x => intro S w a Q h hp; exact ⟨x, w, S, a, .done, h, hp⟩
  | ask q k ih =>
    intro S w a Q h hp
    obtain ⟨h1, h2, h3, T, h5, h4⟩ := hp
    rcases ask_step hs h h1 h2 h3 h5 with ⟨y, w1, e1, e2, e3⟩ | ⟨f, w1, e1, e0, e2, e3⟩
    · rw [e2] at h4
      obtain ⟨x, w', S', a', r1, r2⟩ := ih _ e3 h4
      exact ⟨x, w', S', a', .ask e1 r1, r2⟩
    · rw [e2] at h4
      obtain ⟨x, w', S', a', r1, r2⟩ := ih _ e3 h4
      exact ⟨x, w', S', a', .askPanic e1 e0 r1, r2⟩
  | loop ps body k ih =>
    intro S w a Q h hp
    unfold Prog.wp at hp
    rcases query_step hs h ps with ⟨q, v, e1, e2⟩ | ⟨f, w1, e1, e2, e3⟩
    · rw [pair_eq e2] at hp
      obtain ⟨p1, p2, p3, p4⟩ := hp
      obtain ⟨it, es, v', u, h1, h2, h3, h4, h5, h6, h7, h8, h9, h10⟩ :=
        C63_static (ls := w.locks) h.reach (Nat.lt_of_le_of_lt (h.covers.count h.reach.sound.inv p1) p1) (.refl _ _) h.shows p2 e1 p3 []
      have hu : ({ u with locks := w.locks } : World) = u := by rw [← h8]
      rw [hu] at h5
      obtain ⟨x, w', S', a', r1, r2⟩ := ih _ (h.shape h6 h7 h10) (p4 es h2 h3)
      exact ⟨x, w', S', a', .loop e1 h1 h4 h5 r1, r2⟩
    · rw [pair_eq e2] at hp
      obtain ⟨p1, p2⟩ := hp
      obtain ⟨e3, e4⟩ := e3 p1
      obtain ⟨x, w', S', a', r1, r2⟩ := ih _ e4 p2
      exact ⟨x, w', S', a', .loopPanic e1 e3 r1, r2⟩
  | loopDyn fs body k ih =>
    intro S w a Q h hp
    unfold Prog.wp at hp
    rcases queryDynamic_step hs h fs with ⟨q, v, e1, e2⟩ | ⟨f, w1, e1, e2, e3⟩
    · rw [pair_eq e2] at hp
      obtain ⟨p1, p2, p0, p3, p4⟩ := hp
      obtain ⟨it, es, v', u, h1, h2, h3, h4, h5, h6, h7, h8, h9, h10⟩ :=
        C63_dynamic (ls := w.locks) h.reach (Nat.lt_of_le_of_lt (h.covers.count h.reach.sound.inv p1) p1) (.refl _ _) h.shows p2 (Or.inr p0) e1 p3 []
      have hu : ({ u with locks := w.locks } : World) = u := by rw [← h8]
      rw [hu] at h5
      obtain ⟨x, w', S', a', r1, r2⟩ := ih _ (h.shape h6 h7 h10) (p4 es h2 h3)
      exact ⟨x, w', S', a', .loopDyn e1 h1 h4 h5 r1, r2⟩
    · rw [pair_eq e2] at hp
      obtain ⟨p1, p2⟩ := hp
      obtain ⟨e3, e4⟩ := e3 p1
      obtain ⟨x, w', S', a', r1, r2⟩ := ih _ e4 p2
      exact ⟨x, w', S', a', .loopDynPanic e1 e3 r1, r2⟩
  | loopCols fs ns body k ih =>
    intro S w a Q h hp
    unfold Prog.wp at hp
    rcases queryDynamic_step hs h fs with ⟨q, v, e1, e2⟩ | ⟨f, w1, e1, e2, e3⟩
    · rw [pair_eq e2] at hp
      obtain ⟨p1, p2, p0, p5, p3, p4⟩ := hp
      obtain ⟨it, ess, v', u, h1, _, h2, h3, hg, h4, h5, h6, h7, h8, h9, h10⟩ :=
        C80_loop (ls := w.locks) h.reach (Nat.lt_of_le_of_lt (h.covers.count h.reach.sound.inv p1) p1) (.refl _ _) h.shows p2 (Or.inr p0) e1
          ((strides_shows h.shows).2 p5) p3 []
      have hu : ({ u with locks := w.locks } : World) = u := by rw [← h8]
      rw [hu] at h5
      obtain ⟨x, w', S', a', r1, r2⟩ := ih _ (h.shape h6 h7 h10) (p4 ess h2 h3 hg)
      exact ⟨x, w', S', a', .loopCols e1 h1 h4 h5 r1, r2⟩
    · rw [pair_eq e2] at hp
      obtain ⟨p1, p2⟩ := hp
      obtain ⟨e3, e4⟩ := e3 p1
      obtain ⟨x, w', S', a', r1, r2⟩ := ih _ e4 p2
      exact ⟨x, w', S', a', .loopColsPanic e1 e3 r1, r2⟩
  | visit ps es body k ih =>
    intro S w a Q h hp
    unfold Prog.wp at hp
    rcases query_step hs h ps with ⟨q, v, e1, e2⟩ | ⟨f, w1, e1, e2, e3⟩
    · rw [pair_eq e2] at hp
      obtain ⟨p1, p2⟩ := hp
      obtain ⟨_, ⟨ls, _, rfl⟩, _⟩ := query_ok e1
      obtain ⟨u, v1, v2, v3, v4, v5⟩ := visit_spec e1 p1 es [] h.reach rfl rfl h.shows
      have hx : ∀ b, (Call.query ps b).exec u = dropGuards b q.guards { u with locks := ls } := by
        intro b; rw [query_exec, query_shape v3 v4 e1]
      have hent : ∀ b, NoFullSlot { u with locks := releaseAll b ls q.guards } := fun _ => v2.sound.nowrap
      have hwu := v2.sound
      cases hr : a.visit ps body es [] with
      | mk r b =>
        rw [hr] at p2 v1 v5
        cases r with
        | ok hh =>
          have hdrop := C22_static_drop v2 (ls := u.locks) (.refl _ _) (query_shape v3 v4 e1)
          have hu : ({ u with locks := u.locks } : World) = u := rfl
          rw [hu] at hdrop
          obtain ⟨x, w', S', a', r1, r2⟩ := ih _ (h.shape v2 v3 v5) p2
          exact ⟨x, w', S', a', .visit e1 v1 hdrop r1, r2⟩
        | error f =>
          have hsim := (sim_query hwu.inv hwu.idle v5 ps true).ok (hx true)
          have hre : Reachable { u with locks := releaseAll true ls q.guards } := .ok (.query ps true) v2 trivial (hx true) (hent true)
          obtain ⟨x, w', S', a', r1, r2⟩ := ih _ (h.shape hre (show w.blank = _ from v3) hsim.2) p2
          exact ⟨x, w', S', a', .visit e1 v1 rfl r1, r2⟩
    · rw [pair_eq e2] at hp
      obtain ⟨p1, p2⟩ := hp
      obtain ⟨e3, e4⟩ := e3 p1
      obtain ⟨x, w', S', a', r1, r2⟩ := ih _ e4 p2
      exact ⟨x, w', S', a', .visitPanic e1 e3 r1, r2⟩

/-! ### programs have one result -/

theorem Visit.det {q : StaticQuery} {body : List Found → List (Option Bytes)} {es : List EcsId} {w w1 w2 : World} {h : List Found}
    {r1 r2 : Except Fault (List Found)} (h1 : Visit q body es w h w1 r1) (h2 : Visit q body es w h w2 r2) : w1 = w2 ∧ r1 = r2 := by
  induction h1 generalizing w2 r2 with
  | done => cases h2; exact ⟨rfl, rfl⟩
  | miss g _ ih =>
    cases h2 with
    | miss g' k => exact ih k
    | hit g' _ _ _ => rw [g] at g'; cases g'
    | panic g' _ => rw [g] at g'; cases g'
  | hit g s t _ ih =>
    cases h2 with
    | miss g' k => rw [g] at g'; cases g'
    | hit g' s' t' k =>
      rw [g] at g'; cases g'
      rw [s] at s'; cases s'
      rw [t] at t'; cases t'
      exact ih k
    | panic g' _ => rw [g] at g'; cases g'
  | panic g _ =>
    cases h2 with
    | miss g' k => rw [g] at g'; cases g'
    | hit g' _ _ _ => rw [g] at g'; cases g'
    | panic g' _ => rw [g] at g'; cases g'; exact ⟨rfl, rfl⟩

theorem Exec.det {α : Type} {p : Prog α} {w w1 w2 : World} {x1 x2 : α} (h1 : Exec p w x1 w1) (h2 : Exec p w x2 w2) : x1 = x2 ∧ w1 = w2 := by
  induction h1 generalizing x2 w2 with
  | done => cases h2; exact ⟨rfl, rfl⟩
  | ask g _ ih =>
    cases h2 with
    | ask g' k => rw [g] at g'; cases g'; exact ih k
    | askPanic g' _ k => rw [g] at g'; cases g'
  | askPanic g _ _ ih =>
    cases h2 with
    | ask g' k => rw [g] at g'; cases g'
    | askPanic g' _ k => rw [g] at g'; cases g'; exact ih k
  | loop g i l d _ ih =>
    cases h2 with
    | loop g' i' l' d' k =>
      rw [g] at g'; cases g'
      rw [i] at i'; cases i'
      obtain ⟨rfl, rfl⟩ := ForEach.det l l'
      rw [d] at d'; cases d'
      exact ih k
    | loopPanic g' _ k => rw [g] at g'; cases g'
  | loopPanic g _ _ ih =>
    cases h2 with
    | loop g' i' l' d' k => rw [g] at g'; cases g'
    | loopPanic g' _ k => rw [g] at g'; cases g'; exact ih k
  | loopDyn g i l d _ ih =>
    cases h2 with
    | loopDyn g' i' l' d' k =>
      rw [g] at g'; cases g'
      rw [i] at i'; cases i'
      obtain ⟨rfl, rfl⟩ := ForEach.det l l'
      rw [d] at d'; cases d'
      exact ih k
    | loopDynPanic g' _ k => rw [g] at g'; cases g'
  | loopDynPanic g _ _ ih =>
    cases h2 with
    | loopDyn g' i' l' d' k => rw [g] at g'; cases g'
    | loopDynPanic g' _ k => rw [g] at g'; cases g'; exact ih k
  | loopCols g i l d _ ih =>
    cases h2 with
    | loopCols g' i' l' d' k =>
      rw [g] at g'; cases g'
      rw [i] at i'; cases i'
      obtain ⟨rfl, rfl⟩ := forEachColumn_det l l'
      rw [d] at d'; cases d'
      exact ih k
    | loopColsPanic g' _ k => rw [g] at g'; cases g'
  | loopColsPanic g _ _ ih =>
    cases h2 with
    | loopCols g' i' l' d' k => rw [g] at g'; cases g'
    | loopColsPanic g' _ k => rw [g] at g'; cases g'; exact ih k
  | visit g v d _ ih =>
    cases h2 with
    | visit g' v' d' k =>
      rw [g] at g'; cases g'
      obtain ⟨rfl, rfl⟩ := Visit.det v v'
      rw [d] at d'; cases d'
      exact ih k
    | visitPanic g' _ k => rw [g] at g'; cases g'
  | visitPanic g _ _ ih =>
    cases h2 with
    | visit g' v' d' k => rw [g] at g'; cases g'
    | visitPanic g' _ k => rw [g] at g'; cases g'; exact ih k

end WorldSpec
end Ellecs
