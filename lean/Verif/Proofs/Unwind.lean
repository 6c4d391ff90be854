import Verif.Model.Unwind
import Verif.Spec.Unwind
import Verif.Proofs.Despawn
import Verif.Proofs.BuildNew
/-! # Destructors that panic -/
namespace Ellecs

theorem Panics.after_nil (pan : Panics) : pan.after [] = pan := rfl

theorem Panics.after_after (pan : Panics) (l l' : List DropEv) : (pan.after l).after l' = pan.after (l ++ l') := by
  funext past ev
  show pan (l ++ (l' ++ past)) ev = pan (l ++ l' ++ past) ev
  rw [List.append_assoc]

theorem fires_append (pan : Panics) (l l' : List DropEv) : pan.fires (l ++ l') = (pan.fires l || (pan.after l).fires l') := by
  induction l generalizing pan with
  | nil => rfl
  | cons x xs ih =>
    show (pan [] x || (pan.after [x]).fires (xs ++ l')) = ((pan [] x || _) || _)
    rw [ih, Panics.after_after, Bool.or_assoc]
    rfl

@[simp] theorem fires_nil (pan : Panics) : pan.fires [] = false := rfl

theorem quiet_nil (pan : Panics) : pan.Quiet [] := by
  intro pre ev post h
  cases pre <;> cases h

theorem quiet_cons {pan : Panics} {x : DropEv} {l : List DropEv} :
    pan.Quiet (x :: l) ↔ pan [] x = false ∧ (pan.after [x]).Quiet l := by
  constructor
  · intro h
    exact ⟨h [] x l rfl, fun pre ev post e => h (x :: pre) ev post (by rw [e]; rfl)⟩
  · rintro ⟨h1, h2⟩ pre ev post e
    cases pre with
    | nil => cases e; exact h1
    | cons y pre => cases e; exact h2 pre ev post rfl

theorem quiet_iff {pan : Panics} {l : List DropEv} : pan.Quiet l ↔ pan.fires l = false := by
  induction l generalizing pan with
  | nil => exact ⟨fun _ => rfl, fun _ => quiet_nil pan⟩
  | cons x xs ih =>
    rw [quiet_cons, ih]
    show _ ↔ (pan [] x || _) = false
    rw [Bool.or_eq_false_iff]

theorem not_quiet_iff {pan : Panics} {l : List DropEv} : ¬ pan.Quiet l ↔ pan.fires l = true := by
  rw [quiet_iff, Bool.not_eq_false]

theorem cut_cons (pan : Panics) (x : DropEv) (xs : List DropEv) :
    cut pan (x :: xs) = if pan [] x then [x] else x :: cut (pan.after [x]) xs := rfl

theorem cut_prefix (pan : Panics) (l : List DropEv) : ∃ post, l = cut pan l ++ post := by
  induction l generalizing pan with
  | nil => exact ⟨[], rfl⟩
  | cons x xs ih =>
    obtain ⟨post, h⟩ := ih (pan.after [x])
    rw [cut_cons]
    split
    · exact ⟨xs, rfl⟩
    · exact ⟨post, by rw [List.cons_append, ← h]⟩

theorem cut_quiet {pan : Panics} {l : List DropEv} (h : pan.fires l = false) : cut pan l = l := by
  induction l generalizing pan with
  | nil => rfl
  | cons x xs ih =>
    have h : (pan [] x || _) = false := h
    rw [Bool.or_eq_false_iff] at h
    rw [cut_cons, if_neg (by rw [h.1]; decide), ih h.2]

theorem cut_append {pan : Panics} {l l' : List DropEv} (h : pan.fires l = false) :
    cut pan (l ++ l') = l ++ cut (pan.after l) l' := by
  induction l generalizing pan with
  | nil => rfl
  | cons x xs ih =>
    have h : (pan [] x || _) = false := h
    rw [Bool.or_eq_false_iff] at h
    rw [List.cons_append, cut_cons, if_neg (by rw [h.1]; decide), ih h.2, Panics.after_after]
    rfl

theorem cut_append_any {pan : Panics} {l l' : List DropEv} (h : pan.fires l = true) :
    cut pan (l ++ l') = cut pan l := by
  induction l generalizing pan with
  | nil => cases h
  | cons x xs ih =>
    rw [List.cons_append, cut_cons, cut_cons]
    split
    · rfl
    · rename_i hx
      have h : (pan [] x || _) = true := h
      rw [Bool.or_eq_true] at h
      rw [ih (h.resolve_left hx)]

theorem cut_ne_nil {pan : Panics} {l : List DropEv} (h : pan.fires l = true) : cut pan l ≠ [] := by
  cases l with
  | nil => cases h
  | cons x xs => rw [cut_cons]; split <;> simp

/-- The drop calls `evs` end with the first one that panics; `full` are the calls of a run in which none does. -/
def CutOff (pan : Panics) (evs full : List DropEv) : Prop := pan.fires full = true ∧ evs = cut pan full

theorem CutOff.append {pan : Panics} {evs full pre : List DropEv} (h : CutOff (pan.after pre) evs full)
    (hp : pan.fires pre = false) : CutOff pan (pre ++ evs) (pre ++ full) := by
  refine ⟨?_, ?_⟩
  · rw [fires_append, h.1, Bool.or_true]
  · rw [cut_append hp, h.2]

theorem CutOff.more {pan : Panics} {evs full : List DropEv} (h : CutOff pan evs full) (l : List DropEv) :
    CutOff pan evs (full ++ l) := by
  refine ⟨?_, ?_⟩
  · rw [fires_append, h.1, Bool.true_or]
  · rw [cut_append_any h.1, h.2]

theorem dropEvs_one (info : TypeInfo) (bs : Bytes) : UVec.dropEvs info [bs] = [] ∨ ∃ ev, UVec.dropEvs info [bs] = [ev] := by
  unfold UVec.dropEvs
  cases info.dropFn with
  | none => exact Or.inl rfl
  | some f => exact Or.inr ⟨_, rfl⟩

theorem cut_one_ev (pan : Panics) (info : TypeInfo) (bs : Bytes) :
    cut pan (UVec.dropEvs info [bs]) = UVec.dropEvs info [bs] := by
  rcases dropEvs_one info bs with e | ⟨ev, e⟩
  · rw [e]; rfl
  · rw [e, cut_cons]; split <;> rfl

theorem cutOff_one {pan : Panics} {info : TypeInfo} {bs : Bytes} (h : pan.fires (UVec.dropEvs info [bs]) = true) :
    CutOff pan (UVec.dropEvs info [bs]) (UVec.dropEvs info [bs]) := ⟨h, (cut_one_ev pan info bs).symm⟩

theorem swapRemoveAllU_spec {pan : Panics} {info : EcsId → Option TypeInfo} {n row : Nat}
    {st : List (EcsId × UVec)} (h : StOk info (fun _ => n) st) (hr : row < n) :
    ∃ st' evs u, swapRemoveAllU row pan st = .ok (st', evs, u) ∧ (∀ p ∈ st', UVec.Inv p.2) ∧
      (stEvs st).Perm (stEvs st' ++ evs) ∧
      (u = false → swapRemoveAll row st = .ok (st', evs) ∧ pan.fires evs = false) ∧
      (u = true → CutOff pan evs (rowEvs st row)) := by
  induction st generalizing pan with
  | nil => exact ⟨[], [], false, rfl, by simp, List.Perm.refl _, by simp [swapRemoveAll], by simp⟩
  | cons p ps ih =>
    obtain ⟨⟨h1, h2, h3⟩, h'⟩ := StOk.cons.1 h
    have hc : row < p.2.count := by rw [h2]; exact hr
    obtain ⟨v', f1, f2, f3, f4, _⟩ := UVec.swapRemove_spec h1 hc
    obtain ⟨id, v⟩ := p
    have hp := dropEvs_perm (info := v.info) (perm_swapRemove (elems_row hc))
    rw [UVec.dropEvs_append, ← f4] at hp
    have hrow : rowEvs ((id, v) :: ps) row = UVec.dropEvs v.info [v.elem row] ++ rowEvs ps row := by
      simp [rowEvs]
    have hst : ∀ (x : UVec) l, stEvs ((id, x) :: l) = UVec.dropEvs x.info x.elems ++ stEvs l := by
      intro x l; simp [stEvs]
    by_cases ha : pan.fires (UVec.dropEvs v.info [v.elem row]) = true
    · refine ⟨(id, v') :: ps, UVec.dropEvs v.info [v.elem row], true, ?_, ?_, ?_, by simp, ?_⟩
      · unfold swapRemoveAllU
        simp only [f1]
        rw [if_pos ha]
      · intro q hq
        rcases List.mem_cons.1 hq with e | e
        · subst e; exact f2
        · exact (h' q e).1
      · rw [hst, hst, f3]
        refine (hp.append_right _).trans ?_
        simp only [List.append_assoc]
        exact List.Perm.append_left _ List.perm_append_comm
      · intro _
        rw [hrow]
        exact (cutOff_one ha).more _
    · have hq := (Bool.not_eq_true _).mp ha
      obtain ⟨st', evs, u, e1, e2, e3, e4, e5⟩ := ih (pan := pan.after (UVec.dropEvs v.info [v.elem row])) h'
      refine ⟨(id, v') :: st', UVec.dropEvs v.info [v.elem row] ++ evs, u, ?_, ?_, ?_, ?_, ?_⟩
      · unfold swapRemoveAllU
        simp only [f1]
        rw [if_neg ha, e1]
      · intro q hq
        rcases List.mem_cons.1 hq with e | e
        · subst e; exact f2
        · exact e2 q e
      · rw [hst, hst, f3]
        refine (hp.append e3).trans ?_
        simp only [List.append_assoc]
        refine List.Perm.append_left _ ?_
        rw [← List.append_assoc, ← List.append_assoc]
        exact List.Perm.append_right _ List.perm_append_comm
      · intro hu
        obtain ⟨q1, q2⟩ := e4 hu
        refine ⟨?_, ?_⟩
        · unfold swapRemoveAll
          simp only [f1, q1]
        · rw [fires_append, hq, q2]; rfl
      · intro hu
        rw [hrow]
        exact (e5 hu).append hq

theorem tri_stepU {g : World → Except Fault (World × Bool)} {w : World} {Q : Unit → World → Prop} {E : Fault → World → Prop} :
    Tri (World.stepU g) w Q E ↔
      (match g w with | .ok (w', true) => E .dropPanic w' | .ok (w', false) => Q () w' | .error f => E f w) := by
  unfold Tri World.stepU
  rcases g w with f | ⟨w', b⟩
  · exact Iff.rfl
  · cases b <;> exact Iff.rfl

namespace World

/-- Everything the drop of the world relies on: the columns are well formed vecs and the buffer has its capacity. -/
structure Droppable (w : World) : Prop where
  col : ∀ a ∈ w.archetypes, ∀ p ∈ a.storages, UVec.Inv p.2
  reuse : ∀ ids d c, w.reuse = some (ids, d, c) → (0 < c ∧ d.length = c)

theorem Inv.droppable {w : World} (h : Inv w) : Droppable w :=
  ⟨fun a ha p hp => (h.col a ha p hp).1, fun ids d c hr => (h.reuse ids d c hr).2⟩

theorem Droppable.flat {w : World} (h : Droppable w) :
    ∀ p ∈ (w.archetypes.map Archetype.storages).flatten, UVec.Inv p.2 := by
  intro p hp
  obtain ⟨l, hl, hpl⟩ := List.mem_flatten.1 hp
  obtain ⟨a, ha, rfl⟩ := List.mem_map.1 hl
  exact h.col a ha p hpl

/-- `w'` is what a destructor that panicked in the middle of a call left of `w`. -/
structure Unwound (pan : Panics) (w w' : World) (evs : List DropEv) : Prop where
  log : w'.log = w.log ++ evs
  kept : (w'.storedEvs ++ evs).Perm w.storedEvs
  ok : Droppable w'

theorem despawnU_spec {pan : Panics} {w : World} (h : Inv w) (e : EcsId) :
    Tri (despawnU pan e) w
      (fun b w' => despawn e w = .ok b w' ∧ ∃ evs, w'.log = w.log ++ evs ∧ pan.fires evs = false)
      (fun f w' => (f ≠ .dropPanic ∧ despawn e w = .error f w' ∧ w' = w) ∨
        (f = .dropPanic ∧ ∃ evs w'' full, Unwound pan w w' evs ∧ despawn e w = .ok true w'' ∧ w''.log = w.log ++ full ∧
          CutOff pan evs full)) := by
  have hd := despawn_spec h e
  unfold Tri at hd
  suffices hs : Tri (despawnU pan e) w
      (fun b w' => Tri (despawn e) w (fun b' w'' => b' = b ∧ w'' = w' ∧ ∃ evs, w'.log = w.log ++ evs ∧ pan.fires evs = false)
        (fun _ _ => False))
      (fun f w' => Tri (despawn e) w (fun b w'' => b = true ∧ f = .dropPanic ∧ ∃ evs full, Unwound pan w w' evs ∧
          w''.log = w.log ++ full ∧ CutOff pan evs full)
        (fun f' w'' => f ≠ .dropPanic ∧ f' = f ∧ w'' = w' ∧ w' = w)) by
    refine hs.imp ?_ ?_
    · intro b w' hh
      unfold Tri at hh
      cases hr : despawn e w with
      | ok b' w'' => rw [hr] at hh; obtain ⟨rfl, rfl, hh⟩ := hh; exact ⟨rfl, hh⟩
      | error f w'' => rw [hr] at hh; exact hh.elim
    · intro f w' hh
      unfold Tri at hh
      cases hr : despawn e w with
      | ok b' w'' =>
        rw [hr] at hh; obtain ⟨rfl, rfl, evs, full, h1, h2, h3⟩ := hh
        exact Or.inr ⟨rfl, evs, w'', full, h1, rfl, h2, h3⟩
      | error f' w'' => rw [hr] at hh; obtain ⟨h0, rfl, rfl, hh⟩ := hh; exact Or.inl ⟨h0, rfl, hh⟩
  unfold despawnU despawn
  simp only [tri_bind, tri_get, tri_liftE]
  rcases isAlive_answer h e with ⟨h1, h2⟩ | ⟨h1, h2⟩ | ⟨h1, h2⟩
  · rw [h1]; refine ⟨by decide, ?_, ?_, ?_⟩ <;> trivial
  · rw [h1]; simp only [Bool.not_false, if_true, tri_pure]; exact ⟨trivial, trivial, [], by simp⟩
  · rw [h1]
    simp only [Bool.not_true, Bool.false_eq_true, if_false]
    by_cases hany : w.archetypes.any (fun a => (a.compLookup e).isSome) = true
    · rw [if_pos hany, if_pos hany]
      exact ⟨by decide, rfl, rfl, rfl⟩
    · rw [if_neg hany, if_neg hany]
      have hun : ∀ a ∈ w.archetypes, e ∉ a.compIds := fun a ha hea =>
        hany (List.any_eq_true.2 ⟨a, ha, (looksUp_mem (h.shape a ha).look e).2 hea⟩)
      simp only [tri_bind, tri_liftE]
      rcases getEntityMeta_spec h e with ⟨g1, g2⟩ | ⟨g1, g2⟩ | ⟨g1, g2, g3, g4⟩ | ⟨im, cm, g1, g2, g3, g4, g5⟩
      · have := h2.lt; omega
      · exact absurd h2 g2
      · rw [g1]; refine ⟨by decide, ?_, ?_, ?_⟩ <;> trivial
      · rw [g1]
        simp only [unwrap, tri_step, tri_stepU]
        obtain ⟨a, a1, a2⟩ := rowOf_some g5
        have ham := List.mem_of_getElem? a1
        obtain ⟨A', metas', es', q1, q2, q3, q4⟩ := archDespawn_spec h a1 a2 hun
        rw [a1]
        simp only [q1, q2, tri_pure]
        obtain ⟨st', evs, u, s1, s2, s3, s4, s5⟩ := swapRemoveAllU_spec (pan := pan) (h.col a ham)
          (List.getElem?_eq_some_iff.1 a2).1
        cases u with
        | false =>
          obtain ⟨t1, t2⟩ := s4 rfl
          have hd : a.despawnU pan e im.index w.metas = .ok (A', metas', rowEvs a.storages im.index, false) := by
            revert q1
            unfold Archetype.despawn Archetype.despawnU
            simp only [a2, s1, t1, ne_eq, not_true_eq_false, if_false, Bool.false_eq_true]
            intro q1
            split at q1
            · rw [if_pos (by assumption)]
              split at q1
              · rename_i hn
                simp only [hn]
                injection q1 with q1
                simp only [Prod.mk.injEq] at q1
                rw [q1.1, q1.2.1, q1.2.2]
              · rename_i y hn
                simp only [hn]
                split at q1
                · cases q1
                · rename_i m hm
                  simp only [hm]
                  injection q1 with q1
                  simp only [Prod.mk.injEq] at q1
                  rw [q1.1, q1.2.1, q1.2.2]
            · cases q1
          have hev : evs = rowEvs a.storages im.index := by
            obtain ⟨st2, r1, _⟩ := swapRemoveAll_spec (h.col a ham) (List.getElem?_eq_some_iff.1 a2).1
            rw [r1] at t1
            injection t1 with t1
            injection t1 with _ t1
            exact t1.symm
          simp only [hd, q2]
          exact ⟨trivial, trivial, _, rfl, by rw [← hev]; exact t2⟩
        | true =>
          have hd : a.despawnU pan e im.index w.metas =
              .ok ({ a with entities := swapRemove a.entities im.index, storages := st' }, w.metas, evs, true) := by
            unfold Archetype.despawnU
            simp only [a2, s1, ne_eq, not_true_eq_false, if_false, if_true]
          simp only [hd]
          refine ⟨trivial, trivial, evs, _, ⟨rfl, ?_, ?_⟩, rfl, s5 rfl⟩
          · have p1 := flatMap_set a1 { a with entities := swapRemove a.entities im.index, storages := st' }
              (fun a => stEvs a.storages)
            unfold storedEvs
            rw [List.perm_iff_count] at p1 s3 ⊢
            intro z
            have a1 := p1 z
            have a2 := s3 z
            simp only [List.count_append] at *
            omega
          · refine ⟨?_, h.droppable.reuse⟩
            intro b hb p hp
            rcases List.mem_or_eq_of_mem_set hb with hb | hb
            · exact h.droppable.col b hb p hp
            · subst hb; exact s2 p hp

theorem finishMove_ok {w w' : World} {cur tar : Nat} {A T : Archetype} {e : EcsId} {row : Nat}
    (h : finishMove w cur tar A T e row = .ok w') : w'.log = w.log ∧ w'.reuse = w.reuse ∧
      w'.archetypes.map Archetype.storages = ((w.archetypes.set cur A).set tar T).map Archetype.storages := by
  unfold finishMove at h
  simp only at h
  split at h
  · cases h
  · split at h
    · split at h
      · injection h with h; subst h; exact ⟨rfl, rfl, by simp [List.map_set]⟩
      · split at h
        · cases h
        · injection h with h; subst h; exact ⟨rfl, rfl, by simp [List.map_set]⟩
    · cases h

theorem finishMove_err {w : World} {cur tar : Nat} {A T : Archetype} {e : EcsId} {row : Nat} {f : Fault}
    (h : finishMove w cur tar A T e row = .error f) : ¬ Limit f := by
  have h1 : ∀ (metas : List (Option EntityMeta)) i im f, setInst metas i im = .error f → ¬ Limit f := by
    intro metas i im f h
    unfold setInst at h
    split at h
    · injection h with h; subst h; simp [Limit]
    · injection h with h; subst h; simp [Limit]
    · cases h
  have h2 : ∀ (metas : List (Option EntityMeta)) i im f, setInstIndex metas i im = .error f → ¬ Limit f := by
    intro metas i im f h
    unfold setInstIndex at h
    split at h
    · injection h with h; subst h; simp [Limit]
    · injection h with h; subst h; simp [Limit]
    · cases h
  unfold finishMove at h
  simp only at h
  split at h
  · rename_i hh; injection h with h; subst h; exact h1 _ _ _ _ hh
  · split at h
    · split at h
      · cases h
      · split at h
        · rename_i hh; injection h with h; subst h; exact h2 _ _ _ _ hh
        · cases h
    · injection h with h; subst h; simp [Limit]

/-- The part of `moveRemoveRow` after the slot of the removed component is known. -/
def removeTail (cur tar : Nat) (entity : EcsId) (row : Nat) (w : World) (curA tarA : Archetype)
    (curSt tarSt : List (EcsId × UVec)) (n : Nat) : Except Fault World :=
  match curSt[n]? with
  | none => .error .indexOob
  | some s =>
    match s.2.swapRemove row with
    | .error f => .error f
    | .ok (v, evs) =>
      match finishMove w cur tar { curA with storages := curSt.set n (s.1, v) } { tarA with storages := tarSt } entity row with
      | .error f => .error f
      | .ok w' => .ok { w' with log := w'.log ++ evs }

/-- The same for `moveRemoveRowU`. -/
def removeTailU (pan : Panics) (cur tar : Nat) (entity : EcsId) (row : Nat) (w : World) (curA tarA : Archetype)
    (curSt tarSt : List (EcsId × UVec)) (n : Nat) : Except Fault (World × Bool) :=
  match curSt[n]? with
  | none => .error .indexOob
  | some s =>
    match s.2.swapRemove row with
    | .error f => .error f
    | .ok (v, evs) =>
      if pan.fires evs then
        .ok ({ w with
          archetypes := (w.archetypes.set cur { curA with storages := curSt.set n (s.1, v) }).set tar
            { tarA with storages := tarSt }
          log := w.log ++ evs }, true)
      else
        match finishMove w cur tar { curA with storages := curSt.set n (s.1, v) } { tarA with storages := tarSt } entity row with
        | .error f => .error f
        | .ok w' => .ok ({ w' with log := w'.log ++ evs }, false)

/-- How `r` of `moveRemoveRow` and `ru` of `moveRemoveRowU` are related. -/
def TailRel (pan : Panics) (w : World) (r : Except Fault World) (ru : Except Fault (World × Bool)) : Prop :=
  (∀ f, r = .error f → Limit f → ru = .error f) ∧
  (∀ w', r = .ok w' → ∃ evs, w'.log = w.log ++ evs ∧ (¬ pan.fires evs = true → ru = .ok (w', false)) ∧
      (pan.fires evs = true → ∃ w'', ru = .ok (w'', true) ∧ w''.log = w'.log ∧
        w''.reuse = w'.reuse ∧ w''.archetypes.map Archetype.storages = w'.archetypes.map Archetype.storages))

theorem tailRel_err {pan : Panics} {w : World} {f : Fault} : TailRel pan w (.error f) (.error f) :=
  ⟨fun f' h _ => by injection h with h; rw [h], fun w' h => by cases h⟩

theorem removeTail_rel {pan : Panics} {cur tar : Nat} {e : EcsId} {row : Nat} {w : World} {A T : Archetype}
    {curSt tarSt : List (EcsId × UVec)} {n : Nat} :
    TailRel pan w (removeTail cur tar e row w A T curSt tarSt n) (removeTailU pan cur tar e row w A T curSt tarSt n) := by
  unfold removeTail removeTailU
  cases curSt[n]? with
  | none => exact tailRel_err
  | some s =>
    simp only
    cases s.2.swapRemove row with
    | error f => exact tailRel_err
    | ok p =>
      obtain ⟨v, evs⟩ := p
      simp only
      cases hf : finishMove w cur tar { A with storages := curSt.set n (s.1, v) } { T with storages := tarSt } e row with
      | error f =>
        refine ⟨?_, fun w' h => by cases h⟩
        intro f' h hl
        injection h with h; subst h
        exact absurd hl (finishMove_err hf)
      | ok w1 =>
        refine ⟨(by intro f h; cases h), ?_⟩
        intro w' h
        injection h with h; subst h
        obtain ⟨q1, q2, q3⟩ := finishMove_ok hf
        refine ⟨evs, by simp [q1], ?_, ?_⟩
        · intro ha; rw [if_neg ha]
        · intro ha
          rw [if_pos ha]
          exact ⟨_, rfl, by simp [q1], by simp [q2], by simp only [q3]⟩

theorem moveRemoveRowU_rel {pan : Panics} {w : World} {cur tar row : Nat} {e c : EcsId} :
    TailRel pan w (moveRemoveRow cur tar e row c w) (moveRemoveRowU pan cur tar e row c w) := by
  unfold moveRemoveRow moveRemoveRowU
  cases indexTwice cur tar w.archetypes with
  | error f => exact tailRel_err
  | ok p =>
    obtain ⟨A, T⟩ := p
    simp only
    cases moveRemove c row 0 none A.storages T.storages with
    | error f => exact tailRel_err
    | ok p =>
      obtain ⟨curSt, tarSt, sk⟩ := p
      cases sk with
      | some n => exact removeTail_rel (curSt := curSt) (tarSt := tarSt) (n := n)
      | none =>
        simp only
        cases A.compIds.getLast? with
        | none => exact tailRel_err
        | some l =>
          simp only
          by_cases hl : l = c
          · rw [if_pos hl]; exact removeTail_rel (curSt := curSt) (tarSt := tarSt) (n := curSt.length - 1)
          · rw [if_neg hl]; exact tailRel_err

theorem storedEvs_congr {w w' : World} (h : w.archetypes.map Archetype.storages = w'.archetypes.map Archetype.storages) :
    w.storedEvs = w'.storedEvs := by
  have : ∀ l : List Archetype, l.flatMap (fun a => stEvs a.storages) = (l.map Archetype.storages).flatMap stEvs := by
    intro l; rw [List.flatMap_map]
  unfold storedEvs
  rw [this, this, h]

theorem Droppable.congr {w w' : World} (h : w.archetypes.map Archetype.storages = w'.archetypes.map Archetype.storages)
    (hr : w.reuse = w'.reuse) (hd : Droppable w') : Droppable w := by
  refine ⟨?_, by rw [hr]; exact hd.reuse⟩
  intro a ha p hp
  have : a.storages ∈ w'.archetypes.map Archetype.storages := by rw [← h]; exact List.mem_map_of_mem ha
  obtain ⟨b, hb, e⟩ := List.mem_map.1 this
  exact hd.col b hb p (by rw [e]; exact hp)

theorem removeDynU_spec {pan : Panics} {w : World} (h : Inv w) (e c : EcsId) :
    Tri (removeComponentDynamicU pan e c) w
      (fun _ w' => removeComponentDynamic e c w = .ok () w' ∧ ∃ evs, w'.log = w.log ++ evs ∧ pan.fires evs = false)
      (fun f w' => (f ≠ .dropPanic ∧ removeComponentDynamic e c w = .error f w') ∨
        (f = .dropPanic ∧ ∃ evs w'', Unwound pan w w' evs ∧ removeComponentDynamic e c w = .ok () w'' ∧
          w''.log = w.log ++ evs ∧ CutOff pan evs evs)) := by
  suffices hs : Tri (removeComponentDynamicU pan e c) w
      (fun _ w' => Tri (removeComponentDynamic e c) w
        (fun _ w'' => w'' = w' ∧ ∃ evs, w'.log = w.log ++ evs ∧ pan.fires evs = false)
        (fun _ _ => False))
      (fun f w' => Tri (removeComponentDynamic e c) w (fun _ w'' => f = .dropPanic ∧ ∃ evs, Unwound pan w w' evs ∧
          w''.log = w.log ++ evs ∧ CutOff pan evs evs)
        (fun f' w'' => f ≠ .dropPanic ∧ f' = f ∧ w'' = w')) by
    refine hs.imp ?_ ?_
    · intro b w' hh
      unfold Tri at hh
      cases hr : removeComponentDynamic e c w with
      | ok b' w'' => rw [hr] at hh; obtain ⟨rfl, hh⟩ := hh; exact ⟨rfl, hh⟩
      | error f w'' => rw [hr] at hh; exact hh.elim
    · intro f w' hh
      unfold Tri at hh
      cases hr : removeComponentDynamic e c w with
      | ok b' w'' =>
        rw [hr] at hh; obtain ⟨rfl, evs, h1, h2, h3⟩ := hh
        exact Or.inr ⟨rfl, evs, w'', h1, rfl, h2, h3⟩
      | error f' w'' => rw [hr] at hh; obtain ⟨h0, rfl, rfl⟩ := hh; exact Or.inl ⟨h0, rfl⟩
  unfold removeComponentDynamicU removeComponentDynamic
  simp only [tri_bind, tri_get, tri_liftE]
  rcases isAlive_answer h e with ⟨h1, h2⟩ | ⟨h1, h2⟩ | ⟨h1, h2⟩
  · rw [h1]; refine ⟨by decide, ?_, ?_⟩ <;> trivial
  · rw [h1]; simp only [Bool.not_false, if_true, tri_pure]; exact ⟨trivial, [], by simp⟩
  · rw [h1]
    simp only [Bool.not_true, Bool.false_eq_true, if_false, tri_bind, tri_liftE]
    rcases isAlive_answer h c with ⟨h3, h4⟩ | ⟨h3, h4⟩ | ⟨h3, h4⟩
    · rw [h3]; refine ⟨by decide, ?_, ?_⟩ <;> trivial
    · rw [h3]; simp only [Bool.not_false, if_true, tri_pure]; exact ⟨trivial, [], by simp⟩
    · rw [h3]
      simp only [Bool.not_true, Bool.false_eq_true, if_false, tri_bind, tri_liftE]
      rcases getEntityMeta_spec h e with ⟨g1, g2⟩ | ⟨g1, g2⟩ | ⟨g1, g2, g3, g4⟩ | ⟨im, cm, g1, g2, g3, g4, g5⟩
      · have := h2.lt; omega
      · exact absurd h2 g2
      · rw [g1]; refine ⟨by decide, ?_, ?_⟩ <;> trivial
      · rw [g1]
        simp only [unwrap]
        obtain ⟨a, a1, a2⟩ := rowOf_some g5
        have hres := resolveRemove_spec h a1 c
        unfold Tri at hres
        cases hr : resolveRemove im.archetype c w with
        | error f w1 =>
          rw [hr] at hres
          obtain ⟨rfl, -, -⟩ := hres
          unfold Tri
          simp only [hr]
          refine ⟨by decide, ?_, ?_⟩ <;> trivial
        | ok tar w1 =>
          rw [hr] at hres
          obtain ⟨r1, r2, r3, r4, b, b1, b2⟩ := hres
          have hT : ∀ {Q : Nat → World → Prop} {E : Fault → World → Prop},
              Tri (resolveRemove im.archetype c) w Q E ↔ Q tar w1 := by
            intro Q E; unfold Tri; rw [hr]
          rw [hT, tri_stepU]
          obtain ⟨cc, hcc⟩ := r3.keep _ _ a1
          rcases moveRemoveRow_spec r2 hcc b1 a2 r1 b2 with ⟨f, m1, m2, m3⟩ | ⟨w', m, bs, m1, m2, m3, m4, m5⟩
          · rw [moveRemoveRowU_rel.1 f m1 m2]
            simp only
            rw [hT, tri_step, m1]
            refine ⟨by rintro rfl; simp [Limit] at m2, ?_, ?_⟩ <;> trivial
          · obtain ⟨evs, q1, q2, q3⟩ := (moveRemoveRowU_rel (pan := pan)).2 _ m1
            have hevs : evs = UVec.dropEvs m.info [bs] := by
              simp only at q1
              rw [m4.log] at q1
              exact (List.append_cancel_left q1).symm
            by_cases ha : pan.fires evs = true
            · obtain ⟨w'', u1, u2, u3, u4⟩ := q3 ha
              rw [u1]
              simp only
              rw [hT, tri_step, m1]
              refine ⟨by trivial, evs, ⟨?_, ?_, ?_⟩, ?_, ?_⟩
              · rw [u2, q1, r3.log]
              · rw [storedEvs_congr u4, hevs]
                rw [← r3.evs]; exact m5
              · exact Droppable.congr u4 u3 (w' := { w' with log := w'.log ++ UVec.dropEvs (ComponentMeta.info m) [bs] })
                  ⟨m4.inv.droppable.col, m4.inv.droppable.reuse⟩
              · show w'.log ++ _ = _; rw [← r3.log]; exact q1
              · rw [hevs] at ha ⊢; exact cutOff_one ha
            · rw [q2 ha]
              simp only
              rw [hT, tri_step, m1]
              exact ⟨rfl, evs, by rw [← r3.log]; exact q1, (Bool.not_eq_true _).mp ha⟩

end World

namespace UVec

theorem popAllU_spec {pan : Panics} {v : UVec} (hi : Inv v) (h : v.size ≠ 0) (fuel : Nat) (hf : v.count < fuel) :
    ∃ v', popAllU pan fuel v =
      .ok (v', cut pan (dropEvs v.info v.elems.reverse), pan.fires (dropEvs v.info v.elems.reverse)) := by
  induction fuel generalizing v pan with
  | zero => omega
  | succ fuel ih =>
    unfold popAllU
    cases hl : v.elems.getLast? with
    | none =>
      have he : v.elems = [] := List.getLast?_eq_none_iff.1 hl
      have hd : dropEvs v.info ([] : List Bytes).reverse = [] := by unfold dropEvs; cases v.info.dropFn <;> rfl
      rw [pop_empty hi h he, he, hd]
      exact ⟨v, rfl⟩
    | some x =>
      have hsplit : v.elems = v.elems.dropLast ++ [x] := by
        obtain ⟨l, hl'⟩ := List.getLast?_eq_some_iff.1 hl
        rw [hl']; simp
      rw [pop_spec hi hl]
      simp only
      have hrev : dropEvs v.info v.elems.reverse = dropEvs v.info [x] ++ dropEvs v.info v.elems.dropLast.reverse := by
        rw [← dropEvs_append]
        conv => lhs; rw [hsplit]
        simp
      rw [hrev]
      by_cases ha : pan.fires (dropEvs v.info [x]) = true
      · rw [if_pos ha, cut_append_any ha, fires_append, ha, Bool.true_or, cut_one_ev]
        exact ⟨v.popped, rfl⟩
      · have ha' : pan.fires (dropEvs v.info [x]) = false := by simpa using ha
        rw [if_neg ha, cut_append ha', fires_append, ha', Bool.false_or]
        have hpos : 0 < v.count := by
          rw [← length_elems]
          rw [hsplit]; simp
        obtain ⟨v', e1⟩ := ih (pan := pan.after (dropEvs v.info [x])) (popped_inv hi) h (by rw [popped_count hi]; omega)
        rw [popped_elems hi] at e1
        refine ⟨v', ?_⟩
        simp only [if_true]
        have hinf : v.popped.info = v.info := rfl
        rw [e1, hinf]

/-- The drop calls made when the vec is dropped. -/
def nz (v : UVec) : List DropEv := if v.size = 0 then [] else dropEvs v.info v.elems.reverse

theorem dropU_spec {pan : Panics} {v : UVec} (hi : Inv v) :
    v.dropU pan = .ok (cut pan v.nz, (if pan.fires v.nz then none else v.data), pan.fires v.nz) := by
  unfold dropU nz
  by_cases h : v.size = 0
  · rw [if_pos h, if_neg (by rw [hi.zst h]; omega), data_zst hi h]; rfl
  · rw [if_neg h]
    have hd := drop_spec hi h
    unfold drop at hd
    by_cases hc : v.cap > 0
    · rw [if_pos hc] at hd ⊢
      obtain ⟨v', hv'⟩ := popAllU_spec (pan := pan) hi h (v.len + 1) (by have := count_le_len (v := v); omega)
      obtain ⟨v2, hv2⟩ := popAll_spec hi h (v.len + 1) (by have := count_le_len (v := v); omega)
      rw [hv']
      rw [hv2] at hd
      cases ha : pan.fires (dropEvs v.info v.elems.reverse) with
      | true => rfl
      | false =>
        simp only at hd ⊢
        split at hd
        · rename_i hl
          rw [if_pos hl]
          injection hd with hd
          injection hd with _ hd
          rw [hd]; rfl
        · cases hd
    · rw [if_neg hc] at hd ⊢
      injection hd with hd
      injection hd with h1 h2
      rw [← h1, ← h2]; rfl

end UVec

theorem nzEvs_cons (p : EcsId × UVec) (st : List (EcsId × UVec)) : nzEvs (p :: st) = p.2.nz ++ nzEvs st := rfl

theorem nzEvs_append (st st' : List (EcsId × UVec)) : nzEvs (st ++ st') = nzEvs st ++ nzEvs st' := by
  unfold nzEvs; rw [List.flatMap_append]

/-- Columns are dropped while unwinding: all of them, or up to the first destructor that panics. -/
theorem dropStoragesU_true {pan : Panics} {st : List (EcsId × UVec)} (h : ∀ p ∈ st, UVec.Inv p.2) :
    (pan.fires (nzEvs st) = false ∧ dropStoragesU pan true st = .ok (nzEvs st, .unwound)) ∨
    ∃ s₁ p s₂, st = s₁ ++ p :: s₂ ∧ pan.fires (nzEvs s₁) = false ∧ (pan.after (nzEvs s₁)).fires p.2.nz = true ∧
      dropStoragesU pan true st = .ok (nzEvs s₁ ++ cut (pan.after (nzEvs s₁)) p.2.nz, .aborted) := by
  induction st generalizing pan with
  | nil => exact Or.inl ⟨rfl, rfl⟩
  | cons p ps ih =>
    obtain ⟨id, v⟩ := p
    have hv : UVec.Inv v := h _ List.mem_cons_self
    have hu : dropStoragesU pan true ((id, v) :: ps) = (match v.dropU pan with
      | .error f => .error f
      | .ok (evs, dealloc, u) =>
        if u then .ok (evs, .aborted)
        else if dealloc = v.data then
          match dropStoragesU (pan.after evs) true ps with
          | .error f => .error f
          | .ok (evs', r) => .ok (evs ++ evs', r)
        else .error (.ub .badDealloc)) := rfl
    rw [hu, UVec.dropU_spec hv]
    cases ha : pan.fires v.nz with
    | true => exact Or.inr ⟨[], (id, v), ps, rfl, rfl, ha, rfl⟩
    | false =>
      simp only [if_true, Bool.false_eq_true, if_false, cut_quiet ha]
      rcases ih (pan := pan.after v.nz) (fun q hq => h q (List.mem_cons_of_mem _ hq)) with ⟨e1, e2⟩ | ⟨s₁, p, s₂, rfl, e1, e2, e3⟩
      · refine Or.inl ⟨?_, ?_⟩
        · rw [nzEvs_cons, fires_append, ha, e1]; rfl
        · rw [e2, nzEvs_cons]
      · refine Or.inr ⟨(id, v) :: s₁, p, s₂, rfl, ?_, ?_, ?_⟩
        · rw [nzEvs_cons, fires_append, ha, e1]; rfl
        · rw [nzEvs_cons, ← Panics.after_after]; exact e2
        · rw [e3, nzEvs_cons, ← Panics.after_after, List.append_assoc]

/-- How the drop of columns goes: all of them; or one is left where a destructor panics; or a second one is, and the process
is aborted. -/
theorem dropStoragesU_false {pan : Panics} {st : List (EcsId × UVec)} (h : ∀ p ∈ st, UVec.Inv p.2) :
    (pan.fires (nzEvs st) = false ∧ dropStoragesU pan false st = .ok (nzEvs st, .done)) ∨
    ∃ s₁ p s₂, st = s₁ ++ p :: s₂ ∧ pan.fires (nzEvs s₁) = false ∧ (pan.after (nzEvs s₁)).fires p.2.nz = true ∧
      ∃ evs r, dropStoragesU (pan.after (nzEvs s₁ ++ cut (pan.after (nzEvs s₁)) p.2.nz)) true s₂ = .ok (evs, r) ∧
        dropStoragesU pan false st = .ok (nzEvs s₁ ++ cut (pan.after (nzEvs s₁)) p.2.nz ++ evs, r) := by
  induction st generalizing pan with
  | nil => exact Or.inl ⟨rfl, rfl⟩
  | cons p ps ih =>
    obtain ⟨id, v⟩ := p
    have hv : UVec.Inv v := h _ List.mem_cons_self
    have hps : ∀ q ∈ ps, UVec.Inv q.2 := fun q hq => h q (List.mem_cons_of_mem _ hq)
    have hu : dropStoragesU pan false ((id, v) :: ps) = (match v.dropU pan with
      | .error f => .error f
      | .ok (evs, dealloc, u) =>
        if u then
          match dropStoragesU (pan.after evs) true ps with
          | .error f => .error f
          | .ok (evs', r) => .ok (evs ++ evs', r)
        else if dealloc = v.data then
          match dropStoragesU (pan.after evs) false ps with
          | .error f => .error f
          | .ok (evs', r) => .ok (evs ++ evs', r)
        else .error (.ub .badDealloc)) := rfl
    rw [hu, UVec.dropU_spec hv]
    cases ha : pan.fires v.nz with
    | true =>
      simp only [if_true]
      refine Or.inr ⟨[], (id, v), ps, rfl, rfl, ha, ?_⟩
      obtain ⟨evs, r, e⟩ : ∃ evs r, dropStoragesU (pan.after (cut pan v.nz)) true ps = .ok (evs, r) := by
        rcases dropStoragesU_true (pan := pan.after (cut pan v.nz)) hps with ⟨_, e⟩ | ⟨_, _, _, _, _, _, e⟩ <;> exact ⟨_, _, e⟩
      rw [e]
      exact ⟨evs, r, e, rfl⟩
    | false =>
      simp only [if_true, Bool.false_eq_true, if_false, cut_quiet ha]
      rcases ih (pan := pan.after v.nz) hps with ⟨e1, e2⟩ | ⟨s₁, p, s₂, rfl, e1, e2, evs, r, e3, e4⟩
      · refine Or.inl ⟨?_, ?_⟩
        · rw [nzEvs_cons, fires_append, ha, e1]; rfl
        · rw [e2, nzEvs_cons]
      · refine Or.inr ⟨(id, v) :: s₁, p, s₂, rfl, ?_, ?_, evs, r, ?_, ?_⟩
        · rw [nzEvs_cons, fires_append, ha, e1]; rfl
        · rw [nzEvs_cons, ← Panics.after_after]; exact e2
        · rw [nzEvs_cons]
          simp only [Panics.after_after, List.append_assoc] at e3 ⊢
          exact e3
        · rw [e4, nzEvs_cons, ← Panics.after_after]; simp only [List.append_assoc]

theorem World.dropWorldU_eq {pan : Panics} {w : World} (h : Droppable w) :
    dropWorldU pan w = dropStoragesU pan false (w.archetypes.map Archetype.storages).flatten := by
  unfold dropWorldU
  cases hr : w.reuse with
  | none => rfl
  | some r =>
    obtain ⟨ids, d, c⟩ := r
    simp only
    rw [if_pos (h.reuse ids d c hr)]

theorem World.Droppable.dropWorld {w : World} (h : Droppable w) :
    dropWorld w = .ok (nzEvs (w.archetypes.map Archetype.storages).flatten) := by
  unfold World.dropWorld
  cases hr : w.reuse with
  | none => exact dropStorages_spec h.flat
  | some r =>
    obtain ⟨ids, d, c⟩ := r
    simp only
    rw [if_pos (h.reuse ids d c hr)]
    exact dropStorages_spec h.flat

end Ellecs
