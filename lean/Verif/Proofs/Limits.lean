import Verif.Spec.Limits
import Verif.Proofs.GenTrace
import Verif.Proofs.MemTrace
import Verif.Proofs.Safe
/-! # Programs stay inside the limits -/
namespace Ellecs
namespace World

/-- Every component's layout has at most `s` bytes. -/
abbrev Small (s : Nat) (m : ComponentMeta) : Prop := m.layout.size ≤ s

theorem Call.Within.brings {s : Nat} {c : Call} (h : c.Within s) : c.Brings (Small s) := by
  cases c with
  | spawn kind as =>
    refine ⟨?_, fun t v ht => h.2.2 t v ht⟩
    cases kind with
    | plain => exact Nat.zero_le _
    | capacity n => exact Nat.zero_le _
    | withMeta m => exact h.1 m rfl
  | addComponent e t v => exact h
  | removeComponent e t => exact h
  | register t => exact h
  | _ => trivial

theorem exec_genstep {s : Nat} {c : Call} (hc : c.Within s) (w : World) :
    Tri c.exec w (fun _ w' => GenStep (Small s) w w' ∧ (c.despawns = 0 → GenExt (Small s) w w'))
      (fun _ w' => GenStep (Small s) w w' ∧ (c.despawns = 0 → GenExt (Small s) w w')) := by
  by_cases hd : ∃ e, c = .despawn e
  · obtain ⟨e, rfl⟩ := hd
    unfold Call.exec
    rw [tri_bind]
    exact (despawn_gens e w).imp (fun _ _ h => ⟨h, fun hh => by cases hh⟩) (fun _ _ h => ⟨h, fun hh => by cases hh⟩)
  · exact (exec_gens (S := Small s) (Nat.zero_le _) (fun e he => hd ⟨e, he⟩) hc.brings w).imp
      (fun _ _ h => ⟨h.step, fun _ => h⟩) (fun _ _ h => ⟨h.step, fun _ => h⟩)

theorem noIds {w : World} (h : Inv w) : NoIds w := fun ids d c hr => (h.reuse ids d c hr).1

/-- The rows of a table are for different slots. -/
theorem rows_le {w : World} (h : Inv w) {a : Archetype} (ha : a ∈ w.archetypes) :
    a.entities.length ≤ w.slots ∧ a.entities.length ≤ 2 ^ 32 := by
  obtain ⟨k, hk, rfl⟩ := List.getElem_of_mem ha
  have hk' : w.archetypes[k]? = some w.archetypes[k] := List.getElem?_eq_getElem hk
  have hrow : ∀ r e, w.archetypes[k].entities[r]? = some e → w.entities.Live e ∧ instOf w.metas e.uindex = some ⟨k, r⟩ := by
    intro r e hr
    exact h.loc.ent k r e (by rw [rowOf_eq hk']; exact hr)
  have hnd : (w.archetypes[k].entities.map EcsId.uindex).Nodup := by
    unfold List.Nodup
    rw [List.pairwise_iff_getElem]
    intro i j hi hj hij he
    rw [List.length_map] at hi hj
    rw [List.getElem_map, List.getElem_map] at he
    have h1 := (hrow i _ (List.getElem?_eq_getElem hi)).2
    have h2 := (hrow j _ (List.getElem?_eq_getElem hj)).2
    rw [he, h2] at h1
    injection h1 with h1
    injection h1 with _ h1
    omega
  have key : ∀ n, (∀ e ∈ w.archetypes[k].entities, e.uindex < n) → w.archetypes[k].entities.length ≤ n := by
    intro n hn
    have := hnd.length_le_of_subset (l₂ := List.range n) (by
      intro i hi
      obtain ⟨e, he, rfl⟩ := List.mem_map.1 hi
      exact List.mem_range.2 (hn e he))
    simpa using this
  refine ⟨key _ ?_, key _ fun e _ => e.idx.isLt⟩
  intro e he
  obtain ⟨r, hr, rfl⟩ := List.getElem_of_mem he
  exact (hrow r _ (List.getElem?_eq_getElem hr)).1.lt

/-- The block of every column has room for four elements, or for twice as many as there are slots. -/
def CapsLe (n : Nat) (w : World) : Prop := ∀ a ∈ w.archetypes, ∀ p ∈ a.storages, p.2.cap ≤ p.2.size * max 4 (2 * n)

theorem fair_le {w : World} (h : Inv w) {a : Archetype} (ha : a ∈ w.archetypes) {p : EcsId × UVec} (hp : p ∈ a.storages) {n : Nat}
    (hn : a.entities.length ≤ n) (hf : FairCap p.2) : p.2.cap ≤ p.2.size * max 4 (2 * n) := by
  rcases hf with hf | ⟨h0, hf⟩
  · exact Nat.le_trans hf (by rw [Nat.mul_comm]; exact Nat.mul_le_mul_left _ (Nat.le_max_left _ _))
  · obtain ⟨hi, hc, _⟩ := h.col a ha p hp
    have hl : p.2.len = p.2.size * a.entities.length := by
      have hc : p.2.count = a.entities.length := hc
      unfold UVec.count at hc
      rw [if_neg (by omega)] at hc
      rw [← hc, Nat.mul_div_cancel' (hi.mult (by omega))]
    refine Nat.le_trans hf ?_
    rw [hl, ← Nat.mul_assoc, Nat.mul_comm 2, Nat.mul_assoc]
    refine Nat.mul_le_mul_left _ (Nat.le_trans ?_ (Nat.le_max_right _ _))
    omega

theorem caps_step {w w' : World} (h' : Inv w') (hm : MemEnd w w') {n m : Nat} (hnm : n ≤ m)
    (hrows : ∀ a ∈ w'.archetypes, a.entities.length ≤ m) (hc : CapsLe n w) : CapsLe m w' := by
  intro a' ha' p' hp'
  obtain ⟨k, hk, he⟩ := List.getElem_of_mem ha'
  have hk' : w'.archetypes[k]? = some a' := by rw [List.getElem?_eq_getElem hk, he]
  by_cases hlt : k < w.archetypes.length
  · obtain ⟨a, ha⟩ : ∃ a, w.archetypes[k]? = some a := ⟨_, List.getElem?_eq_getElem hlt⟩
    obtain ⟨a2, e1, l, hcols⟩ := hm.tab k a ha
    rw [hk'] at e1
    injection e1 with e1
    subst e1
    obtain ⟨j, hj, hje⟩ := List.getElem_of_mem hp'
    have hj' : a'.storages[j]? = some p' := by rw [List.getElem?_eq_getElem hj, hje]
    have hj2 : j < a.storages.length := by omega
    have hr := hcols j _ p' (List.getElem?_eq_getElem hj2) hj'
    rcases hr.cap with hcap | hcap
    · have := hc a (List.mem_of_getElem? ha) _ (List.getElem_mem hj2)
      have hs : p'.2.size = a.storages[j].2.size := by unfold UVec.size; rw [hr.info]
      rw [hs]
      exact Nat.le_trans hcap (Nat.le_trans this (Nat.mul_le_mul_left _ (by omega)))
    · exact fair_le h' ha' hp' (hrows a' ha') hcap
  · exact fair_le h' ha' hp' (hrows a' ha') (hm.new k a' (by omega) hk' p' hp')

/-- Small components and bounded blocks leave room. -/
theorem roomy_of {w : World} (h : Inv w) {s n : Nat} (hs : ∀ m, some m ∈ w.metas → m.comp.layout.size ≤ s) (hc : CapsLe n w)
    (h4 : s * 4 < isizeMax) (hn : s * max 4 (2 * n) * 2 < isizeMax) : w.Roomy := by
  refine ⟨?_, fun m hm => Nat.lt_of_le_of_lt (Nat.mul_le_mul_right 4 (hs m hm)) h4⟩
  intro a ha p hp
  obtain ⟨_, _, hi⟩ := h.col a ha p hp
  obtain ⟨_, m, hm, he⟩ := infoFn_some.1 hi
  have hsz : p.2.size ≤ s := by
    have : ∃ m', some m' ∈ w.metas ∧ m'.comp = m := by
      unfold compOf at hm
      cases hx : w.metas[p.1.uindex]? with
      | none => rw [hx] at hm; cases hm
      | some o =>
        cases o with
        | none => rw [hx] at hm; cases hm
        | some m' =>
          rw [hx] at hm
          injection hm with hm
          exact ⟨m', List.mem_of_getElem? hx, hm⟩
    obtain ⟨m', h1, h2⟩ := this
    have := hs m' h1
    rw [h2] at this
    unfold UVec.size
    rw [← he]
    exact this
  refine ⟨Nat.lt_of_le_of_lt (Nat.mul_le_mul_right 4 hsz) h4, ?_⟩
  refine Nat.lt_of_le_of_lt (Nat.mul_le_mul_right 2 (hc a ha p hp)) ?_
  exact Nat.lt_of_le_of_lt (Nat.mul_le_mul_right 2 (Nat.mul_le_mul_right _ hsz)) hn

theorem layoutOk_cap {n : Nat} (h : n ≤ isizeMax) : layoutOk n 0 = true := by
  unfold layoutOk isizeMax usizeMax at *
  simp
  omega

/-- With room for it no call exceeds a limit. -/
theorem not_limit {gs : List Guard} {w : World} (h : Inv w) (hn : w.Ready) (hid : Under gs w) (hr : w.Roomy) {c : Call} (hc : c.Ok w) {s : Nat} (hw : c.Within s)
    (h4 : s * 4 < isizeMax) : Tri c.exec w (fun _ _ => True) (fun f _ => ¬ Limit f) := by
  have nl : ∀ {f : Fault}, f ≠ .arith → f ≠ .layoutErr → f ≠ .capAssert → ¬ Limit f := by
    rintro f h1 h2 h3 (h | h | h) <;> contradiction
  have lt : ∀ {n : Nat}, n ≤ s → n * 4 < isizeMax := fun hh => Nat.lt_of_le_of_lt (Nat.mul_le_mul_right 4 hh) h4
  have hgot : ∀ {t : Ty} {id : EcsId} {w1 : World}, t.size ≤ s → GotId w t id w1 → w1.Roomy := by
    intro t id w1 ht g
    refine g.grow.roomy ?_ hr
    intro t' h1 h2
    by_cases he : t' = t
    · subst he; exact lt ht
    · rw [g.other t' he, h1] at h2; exact absurd rfl h2
  cases c with
  | spawn kind as =>
    unfold Call.exec
    rw [tri_bind]
    refine (spawnWith_spec h hn hc).imp (fun _ _ _ => trivial) ?_
    rintro f w' (⟨_, ⟨rfl, _⟩ | ⟨e, rfl, ⟨n, rfl, hl⟩, _⟩ | ⟨e, w1, b, w2, pre, a, post, b1, w3, _, _, _, _, ⟨hx, _⟩, _⟩⟩ | ⟨_, _, hno⟩)
    · exact nl (by simp) (by simp) (by simp)
    · rw [layoutOk_cap (hw.2.1 n rfl)] at hl; cases hl
    · cases a with
      | «with» t v => rcases hx with ⟨rfl, _⟩ | ⟨rfl, _⟩ | ⟨rfl, _⟩ <;> exact nl (by simp) (by simp) (by simp)
      | withDynamic id => rcases hx with ⟨rfl, _⟩ | ⟨rfl, _⟩ | ⟨rfl, _⟩ <;> exact nl (by simp) (by simp) (by simp)
      | withDynamicWithData id v => rcases hx with ⟨rfl, _⟩ | ⟨rfl, _⟩ | ⟨rfl, _⟩ <;> exact nl (by simp) (by simp) (by simp)
      | build => exact hx.elim
    · exact absurd ⟨hr, fun t v ht => lt (hw.2.2 t v ht)⟩ hno
  | addComponent e t v =>
    refine (addComponent_spec h hn e t hc).imp (fun _ _ _ => trivial) ?_
    rintro f w' (⟨w0, _, ⟨_, ⟨rfl, _⟩ | ⟨rfl, _⟩⟩ | ⟨rfl, _⟩⟩ | ⟨id, w1, g, _, ⟨rfl, _⟩ | ⟨rfl, _⟩ | ⟨_, _, _, hno⟩⟩)
    · exact nl (by simp) (by simp) (by simp)
    · exact nl (by simp) (by simp) (by simp)
    · exact nl (by simp) (by simp) (by simp)
    · exact nl (by simp) (by simp) (by simp)
    · exact nl (by simp) (by simp) (by simp)
    · exact absurd (hgot hw g) hno
  | removeComponent e t =>
    refine (removeComponent_spec h hn e t).imp (fun _ _ _ => trivial) ?_
    rintro f w' (⟨rfl, _⟩ | ⟨rfl, _⟩ | ⟨rfl, _⟩ | ⟨id, w1, g, _, ⟨rfl, _⟩ | ⟨rfl, _⟩ | ⟨_, _, _, hno⟩⟩)
    · exact nl (by simp) (by simp) (by simp)
    · exact nl (by simp) (by simp) (by simp)
    · exact nl (by simp) (by simp) (by simp)
    · exact nl (by simp) (by simp) (by simp)
    · exact nl (by simp) (by simp) (by simp)
    · exact absurd (hgot hw g) hno
  | addDynamic e c =>
    refine (addZst_spec h e c).imp (fun _ _ _ => trivial) ?_
    rintro f w' (⟨_, ⟨rfl, _⟩ | ⟨rfl, _⟩ | ⟨rfl, _⟩ | ⟨rfl, _⟩ | ⟨rfl, _⟩⟩ | ⟨_, hno⟩)
    · exact nl (by simp) (by simp) (by simp)
    · exact nl (by simp) (by simp) (by simp)
    · exact nl (by simp) (by simp) (by simp)
    · exact nl (by simp) (by simp) (by simp)
    · exact nl (by simp) (by simp) (by simp)
    · exact absurd hr hno
  | addDynamicWithData e c src =>
    refine (addDyn_spec h e c (src := src) ?_).imp (fun _ _ _ => trivial) ?_
    · intro m hl hm
      refine hc m ?_
      rw [infoIs_iff h]
      refine ⟨?_, hm⟩
      rcases getEntityMeta_spec h c with ⟨g1, g2⟩ | ⟨g1, g2⟩ | ⟨g1, g2, g3, g4⟩ | ⟨im, cm, g1, g2, g3, g4, g5⟩
      · have := hl.lt; omega
      · exact absurd hl g2
      · unfold compOf at hm; unfold instOf at g3
        cases hx : (w.metas[c.uindex]?).join with
        | none => rw [hx] at hm; cases hm
        | some y => rw [hx] at g3; cases g3
      · exact (row_iff c).2 ⟨_, _, g5⟩
    rintro f w' (⟨rfl, _⟩ | ⟨rfl, _⟩ | ⟨rfl, _⟩ | ⟨rfl, _⟩ | ⟨_, _, _, hno, _⟩)
    · exact nl (by simp) (by simp) (by simp)
    · exact nl (by simp) (by simp) (by simp)
    · exact nl (by simp) (by simp) (by simp)
    · exact nl (by simp) (by simp) (by simp)
    · exact absurd hr hno
  | removeDynamic e c =>
    refine (removeDyn_spec h e c).imp (fun _ _ _ => trivial) ?_
    rintro f w' (⟨rfl, _⟩ | ⟨rfl, _⟩ | ⟨rfl, _⟩ | ⟨_, _, _, hno, _⟩)
    · exact nl (by simp) (by simp) (by simp)
    · exact nl (by simp) (by simp) (by simp)
    · exact nl (by simp) (by simp) (by simp)
    · exact absurd hr hno
  | despawn e =>
    unfold Call.exec
    rw [tri_bind]
    refine (despawn_spec h e).imp (fun _ _ _ => trivial) ?_
    rintro f w' ⟨_, ⟨rfl, _⟩ | ⟨rfl, _⟩ | ⟨rfl, _⟩⟩ <;> exact nl (by simp) (by simp) (by simp)
  | register t =>
    unfold Call.exec
    rw [tri_bind]
    refine (getOrCreate_spec h hn t).imp (fun _ _ _ => trivial) ?_
    rintro f w' ⟨rfl, _⟩
    exact nl (by simp) (by simp) (by simp)
  | write e c bs =>
    unfold Call.exec
    simp only [tri_bind, tri_get, tri_liftE]
    rcases getComponentMut_spec h e c with ⟨h1, _⟩ | ⟨h1, _⟩ | ⟨h1, _⟩ | ⟨p, h1, hp⟩
    · rw [h1]; exact nl (by simp) (by simp) (by simp)
    · rw [h1]; trivial
    · rw [h1]; exact nl (by simp) (by simp) (by simp)
    · rw [h1]
      simp only [tri_step]
      obtain ⟨m, hm⟩ := hp.info h
      obtain ⟨w', w1, _⟩ := writePtr_spec h hp hm (hc m hm)
      rw [w1]
      trivial
  | query ps b =>
    unfold Call.exec
    rw [tri_bind]
    unfold Tri World.query
    cases hf : allFetches w ps with
    | none => exact trivial
    | some fs =>
      simp only
      rcases acquireAllStatic_spec (w := w) fs (ls := w.locks) (base := gs) (done := []) (by rw [List.append_nil]; exact hid) h.lock.range with
        ⟨new, ls', a1, _⟩ | ⟨e, ls', pre, f, post, new, a1, a2, a3, a4, _⟩
      · rw [a1]; exact trivial
      · rw [a1]
        obtain ⟨id, _, ⟨rfl, _⟩ | ⟨i, _, ⟨rfl, _⟩ | ⟨rfl, _⟩⟩⟩ := a4 <;> exact nl (by simp) (by simp) (by simp)
  | queryDynamic fs b =>
    unfold Call.exec
    rw [tri_bind]
    unfold Tri World.queryDynamic
    rcases acquireAllDyn_spec (w := w) fs (ls := w.locks) (base := gs) (done := []) false (by rw [List.append_nil]; exact hid) h.lock.range with
      ⟨new, ls', a1, _⟩ | ⟨e, ls', pre, f, post, new, a1, a2, a3, a4, _⟩
    · rw [a1]; exact trivial
    · rw [a1]
      obtain ⟨id, _, ⟨rfl, _⟩ | ⟨i, _, ⟨rfl, _⟩ | ⟨rfl, _⟩⟩⟩ := a4 <;> exact nl (by simp) (by simp) (by simp)

theorem genBound_noFull {d : Nat} {w : World} (h : GenBound d w.entities) (hd : d < 2 ^ 32) : w.NoFullSlot := by
  intro p hp hf he
  have := h p hp
  rw [hf, he, BitVec.toNat_allOnes] at this
  simp at this
  omega

/-- What a program that stays within `s` bytes and `d` calls of `despawn` maintains. -/
structure Bounded (s d : Nat) (w : World) : Prop where
  gens : GenBound d w.entities
  metas : ∀ m, some m ∈ w.metas → m.comp.layout.size ≤ s
  caps : CapsLe w.slots w
  caps32 : CapsLe (2 ^ 32) w

/-- Components of `s` bytes and as many slots leave room to grow. -/
def Fine (s n : Nat) : Prop := s * max 4 (2 * n) * 2 < isizeMax ∨ s * max 4 (2 * 2 ^ 32) * 2 < isizeMax

theorem Fine.le {s n m : Nat} (h : Fine s m) (hn : n ≤ m) : Fine s n :=
  h.imp_left fun hh => Nat.lt_of_le_of_lt (Nat.mul_le_mul_right 2 (Nat.mul_le_mul_left s (by omega))) hh

theorem Bounded.new (s : Nat) : Bounded s 0 World.new :=
  ⟨(by intro p hp; cases hp), (by intro m hm; cases hm), (by intro a ha; cases ha), (by intro a ha; cases ha)⟩

theorem Bounded.same {s d : Nat} {w w' : World} (h : Bounded s d w) (h1 : w'.entities = w.entities) (h2 : w'.metas = w.metas)
    (h3 : w'.archetypes = w.archetypes) : Bounded s d w' := by
  obtain ⟨a, b, c, e⟩ := h
  refine ⟨by rw [h1]; exact a, by rw [h2]; exact b, ?_, ?_⟩
  · unfold CapsLe slots at *; rw [h1, h3]; exact c
  · unfold CapsLe at *; rw [h3]; exact e

theorem Bounded.roomy {s d : Nat} {w : World} (h : Bounded s d w) (hi : Inv w) (hs : s * 4 < isizeMax) (hn : Fine s w.slots) : w.Roomy := by
  rcases hn with hn | hn
  · exact roomy_of hi h.metas h.caps hs hn
  · exact roomy_of hi h.metas h.caps32 hs hn

/-- A call: the bounds are kept once the resulting world is known to be consistent. -/
theorem Bounded.exec {s d : Nat} {w : World} (h : Bounded s d w) (hi : Inv w) {c : Call} (hw : c.Within s) :
    Tri c.exec w (fun _ w' => w.slots ≤ w'.slots ∧ GenBound (d + c.despawns) w'.entities ∧ (∀ v : World, v.entities = w'.entities → v.metas = w'.metas → v.archetypes = w'.archetypes → Inv v → Bounded s (d + c.despawns) v))
      (fun _ w' => w.slots ≤ w'.slots ∧ GenBound (d + c.despawns) w'.entities ∧ (∀ v : World, v.entities = w'.entities → v.metas = w'.metas → v.archetypes = w'.archetypes → Inv v → Bounded s (d + c.despawns) v)) := by
  have key : ∀ w', GenStep (Small s) w w' → (c.despawns = 0 → GenExt (Small s) w w') → MemEnd w w' →
      w.slots ≤ w'.slots ∧ GenBound (d + c.despawns) w'.entities ∧
        (∀ v : World, v.entities = w'.entities → v.metas = w'.metas → v.archetypes = w'.archetypes → Inv v → Bounded s (d + c.despawns) v) := by
    intro w' g1 g2 hm
    have hg : GenBound (d + c.despawns) w'.entities := by
      cases c <;> first | exact g1.gens d h.gens | exact (g2 rfl).gens d h.gens
    refine ⟨g1.slots, hg, fun v e1 e2 e3 hv => ?_⟩
    have hmv : MemEnd w v := ⟨by rw [e3]; exact hm.tab, by rw [e3]; exact hm.new⟩
    have hsl : w.slots ≤ v.slots := by have := g1.slots; unfold slots at *; rw [e1]; exact this
    exact ⟨by rw [e1]; exact hg, by rw [e2]; exact g1.metas h.metas, caps_step hv hmv hsl (fun a ha => (rows_le hv ha).1) h.caps,
      caps_step hv hmv (Nat.le_refl _) (fun a ha => (rows_le hv ha).2) h.caps32⟩
  have h1 := exec_genstep hw w
  have h2 := exec_mem c (noIds hi)
  unfold Walk Tri at *
  cases hx : c.exec w with
  | ok a w' => rw [hx] at h1 h2; exact key w' h1.1 h1.2 h2
  | error f w' => rw [hx] at h1 h2; exact key w' h1.1 h1.2 h2

theorem Ordinary.bounded {s d : Nat} {w : World} (h : Ordinary s w d) (hd : d < 2 ^ 32) (hs : s * 4 < isizeMax) (hn : Fine s w.slots) :
    Reachable w ∧ Bounded s d w := by
  induction h with
  | new => exact ⟨.new, Bounded.new s⟩
  | @ok w w' d c h0 hc hw hx ih =>
    by_cases hle : w.slots ≤ w'.slots
    · obtain ⟨r, b⟩ := ih (by omega) (hn.le hle)
      obtain ⟨_, hg, hb⟩ := (b.exec r.sound.inv hw).ok hx
      have hr : Reachable w' := .ok c r hc hx (genBound_noFull hg hd)
      exact ⟨hr, hb _ rfl rfl rfl hr.sound.inv⟩
    · exact absurd ((exec_genstep hw w).ok hx).1.slots hle
  | @panic w w' d c f h0 hc hw hx hf ih =>
    by_cases hle : w.slots ≤ w'.slots
    · obtain ⟨r, b⟩ := ih (by omega) (hn.le hle)
      obtain ⟨_, hg, hb⟩ := (b.exec r.sound.inv hw).error hx
      have hso := r.sound
      have hr : Reachable w' := .panic c f r hc hx
        ((not_limit hso.inv hso.nowrap.ready hso.idle (b.roomy hso.inv hs (hn.le hle)) hc hw hs).error hx) hf (genBound_noFull hg hd)
      exact ⟨hr, hb _ rfl rfl rfl hr.sound.inv⟩
    · exact absurd ((exec_genstep hw w).error hx).1.slots hle

/-- A longer chain leaves at least as many slots. -/
theorem chain_slots {w u w' : World} {kind : SpawnKind} {as bs : List BAct} {e : EcsId} {f : Fault} (hu : spawnWith kind as w = .ok e u)
    (hx : spawnWith kind (as ++ bs) w = .error f w') : u.slots ≤ w'.slots := by
  obtain ⟨w1, b, w2, b1, w3, x1, x2, x3, x4⟩ := spawnWith_ok hu
  rw [spawnWith_eq] at hx
  change EStateM.bind spawnId _ w = _ at hx
  unfold EStateM.bind at hx
  rw [x1] at hx
  change EStateM.bind (mkBuilder kind e) _ w1 = _ at hx
  unfold EStateM.bind at hx
  rw [x2] at hx
  change EStateM.bind (b.acts (as ++ bs)) (fun b => EStateM.bind b.drop _) w2 = _ at hx
  unfold EStateM.bind at hx
  rw [acts_append, x3] at hx
  have hu3 : u.slots = w3.slots := by
    rcases drop_cases (b := b1) (u := w3) with ⟨x, hdr⟩ | ⟨r, hdr, hr⟩
    · rw [hdr] at x4; cases x4
    · rw [hdr] at x4
      injection x4 with _ x4
      rw [← x4]; rfl
  rw [hu3]
  have hg := acts_gens (S := fun _ => True) trivial bs b1 trivial (fun _ _ _ => trivial) w3
  simp only at hx
  cases hb : b1.acts bs w3 with
  | error f' w4 =>
    rw [hb] at hx
    injection hx with _ hx
    subst hx
    exact (hg.error hb).slots
  | ok b2 w4 =>
    rw [hb] at hx
    simp only at hx
    have h4 := (hg.ok hb).slots
    have h5 := bdrop_gens (S := fun _ => True) b2 w4
    cases hd : b2.drop w4 with
    | error f' w5 =>
      rw [hd] at hx
      injection hx with _ hx
      subst hx
      exact Nat.le_trans h4 (h5.error hd).slots
    | ok _ w5 => rw [hd] at hx; cases hx

theorem OrdinarySafe.bounded {s d : Nat} {w : World} {gs : List Guard} (h : OrdinarySafe s w gs d) (hd : d < 2 ^ 32) (hs : s * 4 < isizeMax)
    (hn : Fine s w.slots) : Safe w gs ∧ Bounded s d w := by
  induction h with
  | new => exact ⟨.new, Bounded.new s⟩
  | @ok w w' gs d c h0 hc hw hx ih =>
    by_cases hle : w.slots ≤ w'.slots
    · obtain ⟨r, b⟩ := ih (by omega) (hn.le hle)
      obtain ⟨_, hg, hb⟩ := (b.exec r.inv.inv hw).ok hx
      have hr : Safe w' gs := .ok c r hc hx (genBound_noFull hg hd).type
      exact ⟨hr, hb _ rfl rfl rfl hr.inv.inv⟩
    · exact absurd ((exec_genstep hw w).ok hx).1.slots hle
  | @panic w w' gs d c f h0 hc hw hx hf ih =>
    by_cases hle : w.slots ≤ w'.slots
    · obtain ⟨r, b⟩ := ih (by omega) (hn.le hle)
      obtain ⟨_, hg, hb⟩ := (b.exec r.inv.inv hw).error hx
      have hso := r.inv
      have hr : Safe w' gs := .panic c f r hc hx
        ((not_limit hso.inv hso.ready hso.held (b.roomy hso.inv hs (hn.le hle)) hc hw hs).error hx) hf (genBound_noFull hg hd).type
      exact ⟨hr, hb _ rfl rfl rfl hr.inv.inv⟩
    · exact absurd ((exec_genstep hw w).error hx).1.slots hle
  | @keep w w' gs d ps q h0 hq ih =>
    obtain ⟨_, ⟨ls, h1, h2⟩, _⟩ := query_ok hq
    subst h2
    obtain ⟨r, b⟩ := ih hd hn
    exact ⟨.keep ps q r hq, b.same rfl rfl rfl⟩
  | @keepDynamic w w' gs d fs q h0 hq ih =>
    obtain ⟨_, ⟨ls, h1, h2⟩, _⟩ := queryDynamic_ok hq
    subst h2
    obtain ⟨r, b⟩ := ih hd hn
    exact ⟨.keepDynamic fs q r hq, b.same rfl rfl rfl⟩
  | @release w w' gs gs' ds d p h0 hp hx ih =>
    have hx' := hx
    injection hx' with _ hx'
    subst hx'
    obtain ⟨r, b⟩ := ih hd hn
    exact ⟨.release p r hp hx, b.same rfl rfl rfl⟩
  | @forget w w1 w2 w' gs d kind as e b b' h0 hc hw h1 h2 h3 ih =>
    have he := spawnWith_run h1 h2 h3
    have hex : Call.exec (.spawn kind as) w = (do let _ ← spawnWith kind as : M Unit) w := rfl
    have hfin : ∃ (x : EStateM.Result Fault World Unit) (u : World), Call.exec (.spawn kind as) w = x ∧ (x = .ok () u ∨ ∃ f, x = .error f u) ∧
        u.entities = w'.entities ∧ u.metas = w'.metas ∧ u.archetypes = w'.archetypes := by
      rcases drop_cases (b := b') (u := w') with ⟨x, hdr⟩ | ⟨r, hdr, hr⟩
      · simp only [bind, EStateM.bind, hdr, he] at hex
        exact ⟨_, w', hex, Or.inr ⟨_, rfl⟩, rfl, rfl, rfl⟩
      · simp only [bind, EStateM.bind, hdr, he, pure, EStateM.pure] at hex
        exact ⟨_, _, hex, Or.inl rfl, rfl, rfl, rfl⟩
    obtain ⟨x, u, hx, hxu, e1, e2, e3⟩ := hfin
    have hsl : w.slots ≤ w'.slots := by
      have hg := exec_genstep (c := .spawn kind as) hw w
      have : w.slots ≤ u.slots := by
        rcases hxu with rfl | ⟨f, rfl⟩
        · exact (hg.ok hx).1.slots
        · exact (hg.error hx).1.slots
      unfold slots at *
      rw [e1] at this
      exact this
    obtain ⟨r, bd⟩ := ih hd (hn.le hsl)
    have hbe := bd.exec r.inv.inv (c := .spawn kind as) hw
    have hpost : GenBound d u.entities ∧
        (∀ v : World, v.entities = u.entities → v.metas = u.metas → v.archetypes = u.archetypes → Inv v → Bounded s d v) := by
      rcases hxu with rfl | ⟨f, rfl⟩
      · exact (hbe.ok hx).2
      · exact (hbe.error hx).2
    have hsafe : Safe w' gs := .forget kind as e b b' r hc h1 h2 h3 (genBound_noFull (d := d) (by rw [← e1]; exact hpost.1) hd).type
    exact ⟨hsafe, hpost.2 w' e1.symm e2.symm e3.symm hsafe.inv.inv⟩
  | @rejected w u w' gs d kind as e f h0 hv hw hnd hu hf hx ih =>
    have hex : Call.exec (.spawn kind as) w = .ok () u := by
      show (do let _ ← spawnWith kind as : M Unit) w = _
      simp only [bind, EStateM.bind, hu]; rfl
    have hle := chain_slots hu hx
    have hsl := ((exec_genstep hw w).ok hex).1.slots
    obtain ⟨r, b⟩ := ih hd (hn.le (Nat.le_trans hsl hle))
    obtain ⟨_, hg, hb⟩ := (b.exec r.inv.inv hw).ok hex
    have hcu : Call.Ok w (.spawn kind as) := chainOk_nobuild r.inv.inv r.inv.ready hv
    have hsu : Safe u gs := .ok _ r hcu hex (genBound_noFull hg hd).type
    have hbu := hb _ rfl rfl rfl hsu.inv.inv
    obtain ⟨f', w'', h1, h2⟩ := chain_dup_exact r.inv.inv r.inv.ready hv hnd hu
    rw [hx] at h1
    injection h1 with h1 h1'
    subst h1 h1'
    rcases h2 with ⟨_, ⟨_, h2⟩ | ⟨rfl, _, h3, _⟩⟩ | ⟨h2, _⟩
    · exact absurd (hbu.roomy hsu.inv.inv hs (hn.le hle)) h2
    · have e1 : w'.entities = u.entities := by rw [h3]
      have e2 : w'.metas = u.metas := by rw [h3]
      have e3 : w'.archetypes = u.archetypes := by rw [h3]
      exact ⟨.rejected kind as e _ r hv hnd hu hf hx (by rintro (h | h | h) <;> cases h)
        (NoFullSlot.type (by unfold NoFullSlot; rw [e1]; exact genBound_noFull hg hd)), hbu.same e1 e2 e3⟩
    · exact absurd h2 hf

/-- The blocks of a reachable world, whatever the sizes of its components. -/
theorem Reachable.caps {w : World} (h : Reachable w) : CapsLe w.slots w ∧ CapsLe (2 ^ 32) w := by
  have hg : ∀ (c : Call) (w : World), Tri c.exec w (fun _ w' => w.slots ≤ w'.slots) (fun _ w' => w.slots ≤ w'.slots) := by
    intro c w
    by_cases hd : ∃ e, c = .despawn e
    · obtain ⟨e, rfl⟩ := hd
      unfold Call.exec
      rw [tri_bind]
      exact (despawn_gens (S := fun _ => True) e w).imp (fun _ _ h => h.slots) (fun _ _ h => h.slots)
    · have hb : c.Brings (fun _ => True) := by cases c <;> simp [Call.Brings]
      exact (exec_gens (S := fun _ => True) trivial (fun e he => hd ⟨e, he⟩) hb w).imp (fun _ _ h => h.slots) (fun _ _ h => h.slots)
  have step : ∀ {w w' : World}, Inv w' → MemEnd w w' → w.slots ≤ w'.slots → CapsLe w.slots w ∧ CapsLe (2 ^ 32) w →
      CapsLe w'.slots w' ∧ CapsLe (2 ^ 32) w' := fun hi hm hs hc =>
    ⟨caps_step hi hm hs (fun a ha => (rows_le hi ha).1) hc.1, caps_step hi hm (Nat.le_refl _) (fun a ha => (rows_le hi ha).2) hc.2⟩
  induction h with
  | new => exact ⟨(by intro a ha; cases ha), (by intro a ha; cases ha)⟩
  | ok c hw hc hx hn ih =>
    exact step (Reachable.ok c hw hc hx hn).sound.inv ((exec_mem c (noIds hw.sound.inv)).ok hx) ((hg c _).ok hx) ih
  | panic c f hw hc hx hl hf hn ih =>
    exact step (Reachable.panic c f hw hc hx hl hf hn).sound.inv ((exec_mem c (noIds hw.sound.inv)).error hx) ((hg c _).error hx) ih

end World
end Ellecs
