import Verif.Spec.Fate
import Verif.Proofs.Refine
import Verif.Proofs.Program
import Verif.Proofs.Order
import Verif.Props.Drops
/-!
# Which destructors run
-/
namespace Ellecs.WorldSpec
open World

theorem Inv.infoOf {w : World} (h : Inv w) {e c : EcsId} {bs : Bytes} (hh : w.Has e c bs) : ∃ m, w.InfoIs c m := by
  obtain ⟨p, hp⟩ := has_points hh
  exact hp.info h

theorem due_has {w : World} {a : AWorld} (ha : w.Shows a) {e c : EcsId} {bs : Bytes} {m : ComponentMeta} (hh : w.Has e c bs) (hm : w.InfoIs c m) :
    a.due e c = owed m bs := by
  unfold AWorld.due
  rw [(ha.cell e c bs).2 hh, (ha.info c m).2 hm]

theorem due_none {w : World} {a : AWorld} (ha : w.Shows a) {e c : EcsId} (hh : ¬ w.HasComp e c) : a.due e c = [] := by
  unfold AWorld.due
  rw [ha.cellNone.2 hh]

/-- `e` is not there or `c` is not. -/
theorem not_hasComp {w : World} (h : Inv w) {e c : EcsId} (hx : ¬ w.Row e ∨ ¬ w.entities.Live e ∨ ¬ w.entities.Live c) : ¬ w.HasComp e c := by
  rintro ⟨bs, hh⟩
  have h1 := h.has_live hh
  obtain ⟨m, hm⟩ := Inv.infoOf h hh
  rcases hx with hx | hx | hx
  · exact hx h1
  · exact hx (h.row_live h1)
  · exact hx (h.row_live ((infoIs_iff h).1 hm).1)

theorem not_live {w : World} (h : Inv w) {e : EcsId} {r : Except Fault Bool} (hr : w.isAlive e = r) (hn : r ≠ .ok true) : ¬ w.entities.Live e := by
  intro hl
  rw [alive_iff.2 hl] at hr
  exact hn hr.symm

/-- The log has grown by what the maps say. -/
def Logged (w w' : World) (a : AWorld) (c : Call) : Prop := ∃ evs, w'.log = w.log ++ evs ∧ a.Drops c evs

theorem logged_nil {w w' : World} {a : AWorld} {c : Call} (hl : w'.log = w.log) (hd : a.Drops c []) : Logged w w' a c :=
  ⟨[], by rw [hl, List.append_nil], hd⟩

theorem log_removeDyn {w : World} {a : AWorld} (h : Inv w) (ha : w.Shows a) (e c : EcsId) :
    Tri (removeComponentDynamic e c) w (fun _ w' => Logged w w' a (.removeDynamic e c)) (fun f w' => Limit f ∨ Logged w w' a (.removeDynamic e c)) := by
  have hn : ∀ {w' : World}, w'.log = w.log → ¬ w.HasComp e c → Logged w w' a (.removeDynamic e c) := fun hl hc => logged_nil hl (due_none ha hc).symm
  refine (removeDyn_spec h e c).imp ?_ ?_
  · rintro _ w' (⟨hd, rfl⟩ | ⟨hl, hr, hlc, m, bs, hm, hh, hlog, hu, hev⟩)
    · refine hn rfl (not_hasComp h ?_)
      rcases hd with hd | ⟨_, hd⟩
      · exact Or.inr (Or.inl (not_live h hd (by simp)))
      · exact Or.inr (Or.inr (not_live h hd (by simp)))
    · refine ⟨_, hlog, ?_⟩
      show _ = a.due e c
      obtain ⟨m', hm'⟩ := Inv.infoOf h hh
      have := ((infoIs_iff h).1 hm').2
      rw [hm] at this; injection this with this; subst this
      rw [due_has ha hh hm', owed_eq]
  · rintro f w' (⟨rfl, hd, rfl⟩ | ⟨rfl, _, hr, rfl⟩ | ⟨rfl, _, _, hc, rfl⟩ | ⟨hlim, _⟩)
    · refine Or.inr (hn rfl (not_hasComp h ?_))
      rcases hd with hd | hd
      · exact Or.inr (Or.inl (not_live h hd (by simp)))
      · exact Or.inr (Or.inr (not_live h hd (by simp)))
    · exact Or.inr (hn rfl (not_hasComp h (Or.inl hr)))
    · exact Or.inr (hn rfl hc)
    · exact Or.inl hlim

theorem log_removeComponent {w : World} {a : AWorld} (h : Inv w) (hn : w.Ready) (ha : w.Shows a) (e : EcsId) (t : Ty) :
    Tri (removeComponent e t) w (fun _ w' => Logged w w' a (.removeComponent e t)) (fun f w' => Limit f ∨ Logged w w' a (.removeComponent e t)) := by
  have hnil : ∀ {w' : World}, w'.log = w.log → (∀ c, w.typeMap t = some c → ¬ w.HasComp e c) → Logged w w' a (.removeComponent e t) := by
    intro w' hl hc
    refine logged_nil hl ?_
    show [] = (a.types t).toList.flatMap (a.due e)
    rw [ha.types]
    cases ht : w.typeMap t with
    | none => rfl
    | some c => simp [due_none ha (hc c ht)]
  refine (removeComponent_spec h hn e t).imp ?_ ?_
  · rintro _ w' ⟨hl, id, hty, ⟨hd, rfl⟩ | ⟨hr, hl', bs, hh, hlog, hu, hev⟩⟩
    · refine hnil rfl (fun c hc => not_hasComp h (Or.inr (Or.inr ?_)))
      rw [hty] at hc; injection hc with hc; subst hc; exact hd
    · refine ⟨_, hlog, ?_⟩
      show _ = (a.types t).toList.flatMap (a.due e)
      rw [ha.types, hty]
      simp only [Option.toList_some, List.flatMap_cons, List.flatMap_nil, List.append_nil]
      rw [due_has ha hh (typed_info' h hty hh)]
      rfl
  · rintro f w' (⟨rfl, hd, rfl⟩ | ⟨rfl, hd, rfl⟩ | ⟨rfl, _, ht, hg, _⟩ | ⟨id, w1, hg, _, ⟨rfl, hr, _, rfl⟩ | ⟨rfl, _, _, hc, rfl⟩ | ⟨hlim, _⟩⟩)
    · exact Or.inr (hnil rfl (fun c hc => not_hasComp h (Or.inr (Or.inl (not_live h hd (by simp))))))
    · exact Or.inr (hnil rfl (fun c hc => not_hasComp h (Or.inr (Or.inl (not_live h hd (by simp))))))
    · exact Or.inr (hnil hg.log (fun c hc => by rw [ht] at hc; cases hc))
    · refine Or.inr (hnil hg.grow.log (fun c hc => ?_))
      rcases hg.cases with ⟨h1, rfl⟩ | ⟨h1, _⟩
      · exact not_hasComp h (Or.inl hr)
      · rw [h1] at hc; cases hc
    · refine Or.inr (hnil hg.grow.log (fun c hc' => ?_))
      rcases hg.cases with ⟨h1, rfl⟩ | ⟨h1, _⟩
      · rw [h1] at hc'; injection hc' with hc'; subst hc'; exact hc
      · rw [h1] at hc'; cases hc'
    · exact Or.inl hlim

/-- The type gets an id, or the panic is one of the allocator of ids. -/
theorem register_fault (a : AWorld) (t : Ty) : (∃ c, (a.register t).1 = .ok c) ∨ ∃ f, (a.register t).1 = .error f ∧ (f = .indexOob ∨ f = .spawnAssert ∨ f = .outOfIds) := by
  unfold AWorld.register
  cases a.types t with
  | some c => exact Or.inl ⟨c, rfl⟩
  | none =>
    have key : (∃ c, (a.ents.spawn).1 = .ok c) ∨ ∃ f, (a.ents.spawn).1 = .error f ∧ (f = .indexOob ∨ f = .spawnAssert ∨ f = .outOfIds) := by
      unfold Entities.spawn
      split
      · split
        · exact Or.inr ⟨_, rfl, Or.inl rfl⟩
        · split
          · exact Or.inr ⟨_, rfl, Or.inr (Or.inl rfl)⟩
          · simp only
            split
            · exact Or.inr ⟨_, rfl, Or.inr (Or.inr rfl)⟩
            · exact Or.inl ⟨_, rfl⟩
      · simp only
        split
        · exact Or.inr ⟨_, rfl, Or.inr (Or.inr rfl)⟩
        · exact Or.inl ⟨_, rfl⟩
    simp only [AWorld.spawnId]
    cases hs : a.ents.spawn with
    | mk r s =>
      rw [hs] at key
      cases r with
      | ok c => exact Or.inl ⟨c, rfl⟩
      | error f =>
        rcases key with ⟨c, hc⟩ | ⟨f', hf, hh⟩
        · cases hc
        · injection hf with hf; subst hf; exact Or.inr ⟨f, rfl, hh⟩

theorem addDyn_fault {a : AWorld} {e c : EcsId} {v : Bytes} {f : Fault} (h : (a.addDyn e c v).1 = .error f) : f = .noGeneration ∨ f = .unwrapNone ∨ f = .alreadyPresent := by
  have hal : ∀ {x : EcsId} {f : Fault}, a.isAlive x = .error f → f = .noGeneration := by
    intro x f hx
    unfold AWorld.isAlive at hx
    rcases a.ents.isAlive_cases x with ⟨h1, _⟩ | ⟨h1, _⟩ | ⟨h1, _⟩
    · rw [h1] at hx; injection hx with hx; exact hx.symm
    · rw [h1] at hx; cases hx
    · rw [h1] at hx; cases hx
  unfold AWorld.addDyn at h
  split at h
  · rename_i hx; injection h with h; subst h; exact Or.inl (hal hx)
  · cases h
  · split at h
    · rename_i hx; injection h with h; subst h; exact Or.inl (hal hx)
    · cases h
    · split at h
      · injection h with h; exact Or.inr (Or.inl h.symm)
      · injection h with h; exact Or.inr (Or.inr h.symm)
      · injection h with h; exact Or.inr (Or.inl h.symm)
      · cases h

/-- The value given to `add_component` reaches the dynamic call. -/
def Accepted (a : AWorld) (e : EcsId) (t : Ty) : Prop := a.isAlive e = .ok true ∧ ∃ c, (a.register t).1 = .ok c

theorem addComponent_faults {a : AWorld} {e : EcsId} {t : Ty} {v : Bytes} :
    ((a.addComponent e t v).1 = .ok () → Accepted a e t) ∧
    (∀ f, (a.addComponent e t v).1 = .error f → f = .unwrapNone ∨ f = .alreadyPresent → Accepted a e t) ∧
    (∀ f, (a.addComponent e t v).1 = .error f → f = .outOfIds ∨ f = .notAlive → ¬ Accepted a e t) := by
  unfold AWorld.addComponent Accepted
  cases he : a.isAlive e with
  | error f =>
    have : f = .noGeneration := by
      unfold AWorld.isAlive at he
      rcases a.ents.isAlive_cases e with ⟨h1, _⟩ | ⟨h1, _⟩ | ⟨h1, _⟩
      · rw [h1] at he; injection he with he; exact he.symm
      · rw [h1] at he; cases he
      · rw [h1] at he; cases he
    subst this
    refine ⟨(fun h => nomatch h), fun f hf h => ?_, (fun _ _ _ h => nomatch h.1)⟩
    simp only at hf
    injection hf with hf; subst hf
    rcases h with h | h <;> cases h
  | ok b =>
    cases b with
    | false =>
      refine ⟨(fun h => nomatch h), fun f hf h => ?_, (fun _ _ _ h => nomatch h.1)⟩
      simp only at hf
      injection hf with hf; subst hf
      rcases h with h | h <;> cases h
    | true =>
      have hr := register_fault a t
      cases hreg : a.register t with
      | mk r a1 =>
        rw [hreg] at hr
        cases r with
        | ok c =>
          refine ⟨fun _ => ⟨rfl, c, rfl⟩, fun _ _ _ => ⟨rfl, c, rfl⟩, fun f hf h => ?_⟩
          simp only at hf
          rcases addDyn_fault hf with h1 | h1 | h1 <;> subst h1 <;> rcases h with h | h <;> cases h
        | error f =>
          rcases hr with ⟨c, hc⟩ | ⟨f', hf', hh⟩
          · cases hc
          · injection hf' with hf'; subst hf'
            refine ⟨(fun h => nomatch h), fun f' hf h => ?_, (fun _ _ _ h => nomatch h.2)⟩
            simp only at hf
            injection hf with hf; subst hf
            rcases hh with hh | hh | hh <;> subst hh <;> rcases h with h | h <;> cases h

theorem log_addComponent {w : World} {a : AWorld} (h : Inv w) (hn : w.Ready) (ha : w.Shows a) (e : EcsId) (t : Ty) {v : Bytes} (hv : v.length = t.size) :
    Tri (addComponent e t v) w (fun _ w' => Logged w w' a (.addComponent e t v)) (fun f w' => Limit f ∨ Logged w w' a (.addComponent e t v)) := by
  have hyes : ∀ {w' : World}, w'.log = w.log → Accepted a e t → Logged w w' a (.addComponent e t v) := fun hl hac => logged_nil hl (Or.inl ⟨hac, rfl⟩)
  have hno : ∀ {w' : World}, w'.log = w.log ++ [⟨.generic t, v⟩] → ¬ Accepted a e t → Logged w w' a (.addComponent e t v) :=
    fun hl hac => ⟨_, hl, Or.inr ⟨hac, rfl⟩⟩
  obtain ⟨f1, f2, f3⟩ := addComponent_faults (a := a) (e := e) (t := t) (v := v)
  refine (tri_and2 (addComponent_spec h hn e t hv) (sim_addComponent h hn ha e t hv)).imp ?_ ?_
  · rintro _ w' ⟨⟨hl, id, w1, hg, ⟨hd, rfl⟩ | ⟨hr, hl', hnc, hlog, hu, hev⟩⟩, hs, _⟩
    · exact hyes hg.grow.log (f1 hs)
    · exact hyes (by rw [hlog, hg.grow.log]) (f1 hs)
  · rintro f w' ⟨⟨w0, rfl, ⟨rfl, hf⟩ | ⟨rfl, _, _, hg, _⟩⟩ | ⟨id, w1, hg, hl, ⟨rfl, _, _, rfl⟩ | ⟨rfl, _, _, _, rfl⟩ | ⟨hlim, _⟩⟩, hs⟩
    · refine Or.inr (hno rfl ?_)
      rintro ⟨hac, _⟩
      rw [ha.alive] at hac
      rcases hf with ⟨_, hh⟩ | ⟨_, hh⟩ <;> rw [hac] at hh <;> cases hh
    · rcases hs with (hs | hs) | ⟨hs, _⟩
      · exact Or.inl hs
      · cases hs
      · exact Or.inr (hno (by show w0.log ++ _ = _; rw [hg.log]) (f3 _ hs (Or.inl rfl)))
    · rcases hs with (hs | hs) | ⟨hs, _⟩
      · exact Or.inl hs
      · cases hs
      · exact Or.inr (hyes hg.grow.log (f2 _ hs (Or.inl rfl)))
    · rcases hs with (hs | hs) | ⟨hs, _⟩
      · exact Or.inl hs
      · cases hs
      · exact Or.inr (hyes hg.grow.log (f2 _ hs (Or.inr rfl)))
    · exact Or.inl hlim

theorem flatMap_congr_mem {α β : Type} {f g : α → List β} {l : List α} (h : ∀ x ∈ l, f x = g x) : l.flatMap f = l.flatMap g := by
  induction l with
  | nil => rfl
  | cons x l ih =>
    rw [List.flatMap_cons, List.flatMap_cons, h x (List.mem_cons_self ..), ih fun y hy => h y (List.mem_cons_of_mem _ hy)]

theorem log_despawn {w : World} {a : AWorld} (h : Inv w) (ha : w.Shows a) (e : EcsId) :
    Tri (World.despawn e) w (fun _ w' => Logged w w' a (.despawn e)) (fun _ w' => Logged w w' a (.despawn e)) := by
  refine (tri_and2 (despawn_spec h e) (sim_despawn h ha e)).imp ?_ ?_
  · rintro b w' ⟨⟨rfl, _, rfl⟩ | ⟨rfl, _, _, _, hg, evs, L, hd, hlog, hev⟩, hs, _⟩
    · refine logged_nil rfl (Or.inr ⟨?_, rfl⟩)
      rw [hs]; intro hh; cases hh
    · refine ⟨evs, hlog, Or.inl ⟨hs, L.map Prod.fst, ⟨hd.sorted, fun c => ?_⟩, ?_⟩⟩
      · rw [Ne, ha.cellNone, Classical.not_not]
        constructor
        · intro hc
          obtain ⟨⟨c', bs, m⟩, hp, rfl⟩ := List.mem_map.1 hc
          exact ⟨bs, (hd.has _ _).2 ⟨m, hp⟩⟩
        · rintro ⟨bs, hh⟩
          obtain ⟨m, hp⟩ := (hd.has _ _).1 hh
          exact List.mem_map.2 ⟨_, hp, rfl⟩
      · rw [hd.evs, List.flatMap_map]
        apply flatMap_congr_mem
        rintro ⟨c, bs, m⟩ hp
        have hh := (hd.has c bs).2 ⟨m, hp⟩
        obtain ⟨m', hm'⟩ := Inv.infoOf h hh
        have := ((infoIs_iff h).1 hm').2
        rw [hd.comp _ hp] at this; injection this with this; subst this
        rw [due_has ha hh hm', owed_eq]
  · rintro f w' ⟨⟨rfl, hf⟩, hs⟩
    refine logged_nil rfl (Or.inr ⟨?_, rfl⟩)
    rcases hs with hs | ⟨hs, _⟩
    · exfalso
      rcases hf with ⟨rfl, _⟩ | ⟨rfl, _⟩ | ⟨rfl, _⟩ <;> simp [OutOfMemory, Limit] at hs
    · rw [hs]; intro hh; cases hh

theorem releaseLog {w w' : World} {p : Bool} {gs : List Guard} (h : dropGuards p gs w = .ok () w') : w'.log = w.log := by
  unfold dropGuards at h
  cases h; rfl

theorem queryLog {ps : List Param} {w : World} : Tri (query ps) w (fun _ w' => w'.log = w.log) (fun _ w' => w'.log = w.log) := by
  unfold Tri query
  cases allFetches w ps with
  | none => exact rfl
  | some fs =>
    simp only
    split <;> (rename_i hx; revert hx; split <;> intro hx <;> cases hx <;> rfl)

theorem queryDynLog {fs : List Fetch} {w : World} : Tri (queryDynamic fs) w (fun _ w' => w'.log = w.log) (fun _ w' => w'.log = w.log) := by
  unfold Tri queryDynamic
  split <;> (rename_i hx; revert hx; split <;> intro hx <;> cases hx <;> rfl)

theorem writeLog {w w' : World} {p : Ptr} {bs : Bytes} (h : w.writePtr p bs = .ok w') : w'.log = w.log := by
  unfold writePtr at h
  split at h
  · split at h
    · cases h
    · split at h
      · cases h
      · split at h
        · injection h with h; rw [← h]
        · split at h
          · injection h with h; rw [← h]
          · cases h
  · cases h

theorem releaseTri {p : Bool} {gs : List Guard} {w w0 : World} (h : w.log = w0.log) : Tri (dropGuards p gs) w (fun _ w' => w'.log = w0.log) (fun _ w' => w'.log = w0.log) := by
  unfold Tri dropGuards
  exact h

theorem liveInfo {w : World} (h : Inv w) {c : EcsId} : ∀ m, w.entities.Live c → compOf w.metas c.uindex = some m → w.InfoIs c m := by
  intro m hl hm
  rw [infoIs_iff h]
  refine ⟨?_, hm⟩
  rcases getEntityMeta_spec h c with ⟨g1, g2⟩ | ⟨g1, g2⟩ | ⟨g1, g2, g3, g4⟩ | ⟨im, cm, g1, g2, g3, g4, g5⟩
  · have := hl.lt; omega
  · exact absurd hl g2
  · unfold compOf at hm; unfold instOf at g3
    cases hx : (w.metas[c.uindex]?).join with
    | none => rw [hx] at hm; cases hm
    | some y => rw [hx] at g3; cases g3
  · exact (row_iff c).2 ⟨_, _, g5⟩

/-- Every call, when it returns or panics short of the size limits, has dropped what it should. -/
theorem exec_log {w : World} {a : AWorld} (h : Inv w) (hn : w.Ready) (ha : w.Shows a) (c : Call) (hc : c.Ok w) :
    Tri c.exec w (fun _ w' => Logged w w' a c) (fun f w' => Limit f ∨ Logged w w' a c) := by
  cases c with
  | spawn kind as =>
    unfold Call.exec
    rw [tri_bind]
    refine (spawnWith_spec h hn hc).imp ?_ ?_
    · rintro e w' ⟨_, ⟨_, hm⟩ | ⟨pre, post, vals, v1, v2, v3, v4, v5, hm⟩⟩
      · rw [tri_pure]; exact logged_nil hm.log rfl
      · rw [tri_pure]; exact logged_nil hm.log rfl
    · rintro f w' (⟨_, ⟨rfl, _, hg, _⟩ | ⟨e, rfl, _, hm⟩ | ⟨e, w1, b, w2, pre, a, post, b1, w3, x1, x2, x3, x4, x5, hm | ⟨pre', post', vals, v1, v2, v3, v4, v5, hm⟩⟩⟩ | ⟨hl, _⟩)
      · exact Or.inr (logged_nil hg.log rfl)
      · exact Or.inl (Or.inr (Or.inl rfl))
      · exact Or.inr (logged_nil hm.2.log rfl)
      · exact Or.inr (logged_nil hm.log rfl)
      · exact Or.inl hl
  | addComponent e t v => exact log_addComponent h hn ha e t hc
  | removeComponent e t => exact log_removeComponent h hn ha e t
  | addDynamic e c =>
    refine (addZst_spec h e c).imp ?_ ?_
    · rintro _ w' ⟨hr, hnc, hlog, m, hm, hz, hu, hev⟩
      exact logged_nil hlog rfl
    · rintro f w' (⟨rfl, hf⟩ | ⟨hlim, _⟩)
      · exact Or.inr (logged_nil rfl rfl)
      · exact Or.inl hlim
  | addDynamicWithData e c src =>
    refine (addDyn_spec h e c (fun m hl hm => hc m (liveInfo h m hl hm))).imp ?_ ?_
    · rintro _ w' (⟨hd, rfl⟩ | ⟨hl, hr, hlc, hnc, hlog, m, hm, hu, hev⟩)
      · exact logged_nil rfl rfl
      · exact logged_nil hlog rfl
    · rintro f w' (⟨rfl, _, rfl⟩ | ⟨rfl, _, _, rfl⟩ | ⟨rfl, _, _, _, rfl⟩ | ⟨rfl, _, _, _, hi, hs, _⟩ | ⟨hlim, _⟩)
      · exact Or.inr (logged_nil rfl rfl)
      · exact Or.inr (logged_nil rfl rfl)
      · exact Or.inr (logged_nil rfl rfl)
      · exact Or.inr (logged_nil hs.log rfl)
      · exact Or.inl hlim
  | removeDynamic e c => exact log_removeDyn h ha e c
  | despawn e =>
    unfold Call.exec
    rw [tri_bind]
    refine (log_despawn h ha e).imp ?_ ?_
    · intro _ w' hw; rw [tri_pure]; exact hw
    · intro f w' hw; exact Or.inr hw
  | register t =>
    unfold Call.exec
    rw [tri_bind]
    refine (getOrCreate_spec h hn t).imp ?_ ?_
    · rintro id w' ⟨hg, _⟩
      rw [tri_pure]; exact logged_nil hg.log rfl
    · rintro f w' ⟨rfl, _, _, hg, _⟩
      exact Or.inr (logged_nil hg.log rfl)
  | write e c bs =>
    unfold Call.exec
    simp only [tri_bind, tri_get, tri_liftE]
    rcases getComponentMut_spec h e c with ⟨h1, h2⟩ | ⟨h1, h2⟩ | ⟨h1, h2, h3, h4⟩ | ⟨p, h1, hp⟩
    · rw [h1]; exact Or.inr (logged_nil rfl rfl)
    · rw [h1]; simp only [tri_pure]; exact logged_nil rfl rfl
    · rw [h1]; exact Or.inr (logged_nil rfl rfl)
    · rw [h1]
      simp only [tri_step]
      obtain ⟨m, hm⟩ := hp.info h
      obtain ⟨w', w1, w2⟩ := writePtr_spec h hp hm (hc m hm)
      rw [w1]; exact logged_nil w2.log rfl
  | query ps b =>
    unfold Call.exec
    rw [tri_bind]
    refine queryLog.imp ?_ ?_
    · intro q w' hq
      exact (releaseTri hq).imp (fun _ _ hh => logged_nil hh rfl) (fun _ _ hh => Or.inr (logged_nil hh rfl))
    · intro f w' hq; exact Or.inr (logged_nil hq rfl)
  | queryDynamic fs b =>
    unfold Call.exec
    rw [tri_bind]
    refine queryDynLog.imp ?_ ?_
    · intro q w' hq
      exact (releaseTri hq).imp (fun _ _ hh => logged_nil hh rfl) (fun _ _ hh => Or.inr (logged_nil hh rfl))
    · intro f w' hq; exact Or.inr (logged_nil hq rfl)

theorem ask_callOk {q : Ask} {w : World} (hq : q.Ok w) : ∀ c, q.asCall = some c → c.Ok w := by
  cases q with
  | call c => intro c' hc'; cases hc'; exact hq
  | spawn kind xs => intro c' hc'; cases hc'; exact hq
  | despawn e => intro c' hc'; cases hc'; trivial
  | register t => intro c' hc'; cases hc'; trivial
  | isAlive e => intro c' hc'; cases hc'
  | has t e => intro c' hc'; cases hc'
  | look e c n => intro c' hc'; cases hc'

theorem ask_log {w : World} {a : AWorld} (h : Inv w) (hn : w.Ready) (ha : w.Shows a) (q : Ask) (hq : q.Ok w) :
    Tri q.exec w (fun _ w' => ∃ evs, w'.log = w.log ++ evs ∧ a.AskDrops q evs) (fun f w' => Limit f ∨ ∃ evs, w'.log = w.log ++ evs ∧ a.AskDrops q evs) := by
  obtain ⟨k1, k2⟩ := ask_asCall q w
  unfold AWorld.AskDrops
  cases hc : q.asCall with
  | none =>
    obtain ⟨n1, n2⟩ := k2 hc
    unfold Tri
    cases hx : q.exec w with
    | ok x w' => rw [n1 x w' hx]; exact ⟨[], (List.append_nil _).symm, rfl⟩
    | error f w' => rw [n2 f w' hx]; exact Or.inr ⟨[], (List.append_nil _).symm, rfl⟩
  | some c =>
    obtain ⟨n1, n2⟩ := k1 c hc
    have := exec_log h hn ha c (ask_callOk hq c hc)
    unfold Tri at this ⊢
    cases hx : q.exec w with
    | ok x w' => rw [n1 x w' hx] at this; exact this
    | error f w' => rw [n2 f w' hx] at this; exact this

theorem Talk.fates {w w' : World} {tr : List (Ask × Except Fault Answer)} (hw : Reachable w) (h : Talk w tr w') :
    ∀ {a : AWorld}, w.Shows a → ∃ evs, w'.log = w.log ++ evs ∧ a.Fates (tr.map Prod.fst) evs := by
  induction h with
  | done w => intro a ha; exact ⟨[], (List.append_nil _).symm, rfl⟩
  | @ok w w1 w2 q x rest h1 h2 h3 _ ih =>
    intro a ha
    have hs := hw.sound
    obtain ⟨s1, s2⟩ := (sim_ask hs.inv hs.nowrap.ready hs.idle ha h1).ok h2
    obtain ⟨e1, l1, d1⟩ := (ask_log hs.inv hs.nowrap.ready ha q h1).ok h2
    obtain ⟨e2, l2, d2⟩ := ih ((ask_reachable hw h1).1 _ _ h2 h3) s2
    exact ⟨e1 ++ e2, by rw [l2, l1, List.append_assoc], e1, e2, rfl, d1, d2⟩
  | @panic w w1 w2 q x rest h1 h2 h3 h4 h5 _ ih =>
    intro a ha
    have hs := hw.sound
    rcases (ask_log hs.inv hs.nowrap.ready ha q h1).error h2 with hl | ⟨e1, l1, d1⟩
    · exact absurd (Or.inl hl) h3
    rcases (sim_ask hs.inv hs.nowrap.ready hs.idle ha h1).error h2 with hh | ⟨s1, s2⟩
    · exact absurd hh h3
    obtain ⟨e2, l2, d2⟩ := ih ((ask_reachable hw h1).2 _ _ h2 (fun hh => h3 (Or.inl hh)) h4 h5) s2
    exact ⟨e1 ++ e2, by rw [l2, l1, List.append_assoc], e1, e2, rfl, d1, d2⟩

/-! ### what the specification leaves open: nothing -/

theorem ascending_unique {s : EcsId → Prop} {cs ds : List EcsId} (h1 : AWorld.Ascending s cs) (h2 : AWorld.Ascending s ds) : cs = ds := by
  have irr : ∀ c, EcsId.lt c c = true → False := fun c h => lt_irrefl c h
  have asym : ∀ c d, EcsId.lt c d = true → EcsId.lt d c = true → False := fun c d h1 h2 => lt_irrefl c (lt_trans h1 h2)
  obtain ⟨o1, a1⟩ := h1
  obtain ⟨o2, a2⟩ := h2
  have hm : ∀ c, c ∈ cs ↔ c ∈ ds := fun c => (a1 c).trans (a2 c).symm
  clear a1 a2
  induction cs generalizing ds with
  | nil =>
    cases ds with
    | nil => rfl
    | cons d ds => exact absurd ((hm d).2 (List.mem_cons_self ..)) (by simp)
  | cons c cs ih =>
    cases ds with
    | nil => exact absurd ((hm c).1 (List.mem_cons_self ..)) (by simp)
    | cons d ds =>
      rw [List.pairwise_cons] at o1 o2
      have hcd : c = d := by
        rcases List.mem_cons.1 ((hm c).1 (List.mem_cons_self ..)) with h | h
        · exact h
        · rcases List.mem_cons.1 ((hm d).2 (List.mem_cons_self ..)) with h' | h'
          · exact h'.symm
          · exact (asym _ _ (o1.1 d h') (o2.1 c h)).elim
      subst hcd
      rw [ih o1.2 o2.2]
      intro x
      constructor
      · intro hx
        rcases List.mem_cons.1 ((hm x).1 (List.mem_cons_of_mem _ hx)) with h | h
        · subst h; exact (irr _ (o1.1 _ hx)).elim
        · exact h
      · intro hx
        rcases List.mem_cons.1 ((hm x).2 (List.mem_cons_of_mem _ hx)) with h | h
        · subst h; exact (irr _ (o2.1 _ hx)).elim
        · exact h

theorem drops_unique {a : AWorld} {c : Call} {x y : List DropEv} (h1 : a.Drops c x) (h2 : a.Drops c y) : x = y := by
  cases c with
  | addComponent e t v =>
    rcases h1 with ⟨p1, rfl⟩ | ⟨p1, rfl⟩ <;> rcases h2 with ⟨p2, rfl⟩ | ⟨p2, rfl⟩
    · rfl
    · exact absurd p1 p2
    · exact absurd p2 p1
    · rfl
  | despawn e =>
    rcases h1 with ⟨p1, cs, q1, rfl⟩ | ⟨p1, rfl⟩ <;> rcases h2 with ⟨p2, ds, q2, rfl⟩ | ⟨p2, rfl⟩
    · rw [ascending_unique q1 q2]
    · exact absurd p1 p2
    · exact absurd p2 p1
    · rfl
  | removeComponent e t => exact Eq.trans h1 (Eq.symm h2)
  | removeDynamic e c => exact Eq.trans h1 (Eq.symm h2)
  | _ => exact Eq.trans h1 (Eq.symm h2)

theorem fates_unique {a : AWorld} {qs : List Ask} {x y : List DropEv} (h1 : a.Fates qs x) (h2 : a.Fates qs y) : x = y := by
  induction qs generalizing a x y with
  | nil => exact Eq.trans h1 (Eq.symm h2)
  | cons q qs ih =>
    obtain ⟨x1, x2, rfl, p1, p2⟩ := h1
    obtain ⟨y1, y2, rfl, q1, q2⟩ := h2
    have : x1 = y1 := by
      unfold AWorld.AskDrops at p1 q1
      cases hc : q.asCall with
      | none => rw [hc] at p1 q1; exact Eq.trans p1 (Eq.symm q1)
      | some c => rw [hc] at p1 q1; exact drops_unique p1 q1
    rw [this, ih p2 q2]

/-! ### the end of a world -/

theorem owed_filter (m : ComponentMeta) (bs : Bytes) : (owed m bs).filter (fun ev => !ev.bytes.isEmpty) = if bs.length = 0 then [] else owed m bs := by
  unfold owed
  cases m.dropFn with
  | none => simp
  | some f => cases bs <;> simp

theorem dropEvs_flat (m : ComponentMeta) (l : List Bytes) : UVec.dropEvs m.info l = l.flatMap (owed m) := by
  induction l with
  | nil => unfold UVec.dropEvs; cases m.info.dropFn <;> rfl
  | cons x l ih =>
    rw [List.flatMap_cons, ← ih, owed_eq]
    unfold UVec.dropEvs
    cases m.info.dropFn <;> rfl

/-- The drop calls of one column. -/
theorem column_evs {w : World} {a : AWorld} (h : Inv w) (ha : w.Shows a) {k : Nat} {ar : Archetype} (hk : w.archetypes[k]? = some ar) {c : EcsId} {v : UVec}
    (hp : (c, v) ∈ ar.storages) :
    (if v.size = 0 then [] else UVec.dropEvs v.info v.elems.reverse) =
      ar.entities.reverse.flatMap (fun e => (a.due e c).filter (fun ev => !ev.bytes.isEmpty)) := by
  have hmem := List.mem_of_getElem? hk
  obtain ⟨hv, hcnt, hinfo⟩ := h.col ar hmem (c, v) hp
  obtain ⟨hl, m, hm, hmi⟩ := infoFn_some.1 hinfo
  have hcnt : v.count = ar.entities.length := hcnt
  have hI : w.InfoIs c m := liveInfo h m hl hm
  have hel : elemsOf ar.storages c = some v.elems := elemsOf_of_mem (by rw [(h.shape ar hmem).ids]; exact (h.shape ar hmem).sorted.nodup) hp
  have key : ar.entities.map (fun e => (a.due e c).filter (fun ev => !ev.bytes.isEmpty)) = v.elems.map (fun bs => if v.size = 0 then [] else owed m bs) := by
    refine List.ext_getElem? fun r => ?_
    rw [List.getElem?_map, List.getElem?_map]
    by_cases hr : r < v.count
    · rw [elems_row hr]
      have hr' : r < ar.entities.length := by rw [← hcnt]; exact hr
      rw [List.getElem?_eq_getElem hr']
      have hrow : rowOf w.archetypes k r = some ar.entities[r] := by unfold rowOf; rw [hk]; exact List.getElem?_eq_getElem hr'
      have hhas : w.Has ar.entities[r] c (v.elem r) := by
        rw [has_at h hrow, cellOf_eq hk, hel]
        exact elems_row hr
      simp only [Option.map_some]
      rw [due_has ha hhas hI, owed_filter, elems_lengths hv _ (List.mem_of_getElem? (elems_row hr))]
    · rw [UVec.getElem?_elems, if_neg hr, List.getElem?_eq_none (by rw [← hcnt]; exact Nat.le_of_not_lt hr)]
      rfl
  rw [List.flatMap_def, List.map_reverse, key, ← List.map_reverse, ← List.flatMap_def]
  by_cases hz : v.size = 0
  · simp [hz]
  · simp only [hz, if_false]
    rw [show v.info = m.info from hmi.symm, dropEvs_flat]

theorem table_evs {w : World} {a : AWorld} (h : Inv w) (ha : w.Shows a) {k : Nat} {ar : Archetype} (hk : w.archetypes[k]? = some ar) :
    nzEvs ar.storages = ar.compIds.flatMap (fun c => ar.entities.reverse.flatMap (fun e => (a.due e c).filter (fun ev => !ev.bytes.isEmpty))) := by
  have hids := (h.shape ar (List.mem_of_getElem? hk)).ids
  rw [← hids]
  unfold nzEvs stIds
  rw [List.flatMap_map]
  exact flatMap_congr_mem fun p hp => column_evs h ha hk hp

theorem burial_tables {w : World} {a : AWorld} (h : Inv w) (ha : w.Shows a) : ∀ (l : List Archetype) (k : Nat), (∀ i ar, l[i]? = some ar → w.archetypes[k + i]? = some ar) →
    a.Burial (l.map (fun ar => (fun c => c ∈ ar.compIds, ar.entities))) (nzEvs (l.map Archetype.storages).flatten) := by
  intro l
  induction l with
  | nil => intro k _; rfl
  | cons ar l ih =>
    intro k hk
    have h0 := hk 0 ar rfl
    refine ⟨ar.compIds, nzEvs (l.map Archetype.storages).flatten, ⟨(h.shape ar (List.mem_of_getElem? h0)).sorted, fun c => Iff.rfl⟩,
      ih (k + 1) (fun i x hx => by rw [Nat.add_assoc, Nat.add_comm 1 i]; exact hk (i + 1) x hx), ?_⟩
    rw [← table_evs h ha h0]
    unfold nzEvs
    rw [List.map_cons, List.flatten_cons, List.flatMap_append]

theorem burial_world {w : World} {a : AWorld} (h : Inv w) (ha : w.Shows a) :
    dropWorld w = .ok (nzEvs (w.archetypes.map Archetype.storages).flatten) ∧ a.Burial (lines w) (nzEvs (w.archetypes.map Archetype.storages).flatten) := by
  have hv : ∀ p ∈ (w.archetypes.map Archetype.storages).flatten, UVec.Inv p.2 := by
    intro p hp
    obtain ⟨l, hl, hpl⟩ := List.mem_flatten.1 hp
    obtain ⟨a, ha, rfl⟩ := List.mem_map.1 hl
    exact (h.col a ha p hpl).1
  refine ⟨?_, burial_tables h ha w.archetypes 0 (fun i ar hi => by rw [Nat.zero_add]; exact hi)⟩
  unfold dropWorld
  cases hr : w.reuse with
  | none => exact dropStorages_spec hv
  | some r =>
    obtain ⟨ids, d, c⟩ := r
    simp only
    rw [if_pos (h.reuse ids d c hr).2]
    exact dropStorages_spec hv

theorem burial_unique {a : AWorld} {L : List Line} {x y : List DropEv} (h1 : a.Burial L x) (h2 : a.Burial L y) : x = y := by
  induction L generalizing x y with
  | nil => exact Eq.trans h1 (Eq.symm h2)
  | cons p L ih =>
    obtain ⟨cs, r1, p1, p2, rfl⟩ := h1
    obtain ⟨ds, r2, q1, q2, rfl⟩ := h2
    rw [ascending_unique p1 q1, ih p2 q2]

/-- The values of the world, in the order in which they are dropped with it. -/
def pairs (w : World) : List (EcsId × EcsId) := w.archetypes.flatMap (fun ar => ar.compIds.flatMap (fun c => ar.entities.reverse.map (fun e => (e, c))))

theorem pairs_evs {w : World} {a : AWorld} (h : Inv w) (ha : w.Shows a) :
    nzEvs (w.archetypes.map Archetype.storages).flatten = (pairs w).flatMap (fun x => (a.due x.1 x.2).filter (fun ev => !ev.bytes.isEmpty)) := by
  have : nzEvs (w.archetypes.map Archetype.storages).flatten = w.archetypes.flatMap (fun ar => nzEvs ar.storages) := by
    unfold nzEvs
    generalize w.archetypes = L
    induction L with
    | nil => rfl
    | cons x l ih => rw [List.map_cons, List.flatten_cons, List.flatMap_append, ih, List.flatMap_cons]
  rw [this]
  unfold pairs
  rw [List.flatMap_assoc]
  apply flatMap_congr_mem
  intro ar har
  obtain ⟨k, hk⟩ := List.mem_iff_getElem?.1 har
  rw [table_evs h ha hk, List.flatMap_assoc]
  apply flatMap_congr_mem
  intro c _
  rw [List.flatMap_map]

theorem mem_pairs {w : World} (h : Inv w) {e c : EcsId} : (e, c) ∈ pairs w ↔ w.HasComp e c := by
  unfold pairs
  simp only [List.mem_flatMap, List.mem_map, List.mem_reverse, Prod.mk.injEq]
  constructor
  · rintro ⟨ar, har, c', hc, e', he, rfl, rfl⟩
    obtain ⟨k, hk⟩ := List.mem_iff_getElem?.1 har
    obtain ⟨r, hr⟩ := List.mem_iff_getElem?.1 he
    have hrow : rowOf w.archetypes k r = some e' := by unfold rowOf; rw [hk]; exact hr
    rw [← (h.shape ar har).ids] at hc
    obtain ⟨⟨c1, v⟩, hp, rfl⟩ := List.mem_map.1 hc
    have hel : elemsOf ar.storages c1 = some v.elems := elemsOf_of_mem (by rw [(h.shape ar har).ids]; exact (h.shape ar har).sorted.nodup) hp
    have hcnt : v.count = ar.entities.length := (h.col ar har (c1, v) hp).2.1
    have hr' : r < v.count := by rw [hcnt]; exact (List.getElem?_eq_some_iff.1 hr).1
    exact ⟨v.elem r, by rw [has_at h hrow, cellOf_eq hk, hel]; exact elems_row hr'⟩
  · rintro ⟨bs, hh⟩
    obtain ⟨k, r, ar, v, h1, h2, h3, h4⟩ := hh
    have har := List.mem_of_getElem? h1
    refine ⟨ar, har, c, ?_, e, List.mem_of_getElem? h2, rfl, rfl⟩
    rw [← (h.shape ar har).ids]
    exact List.mem_map.2 ⟨(c, v), by simp_all, rfl⟩

theorem pairs_nodup {w : World} (h : Inv w) : (pairs w).Nodup := by
  unfold pairs List.Nodup
  rw [List.pairwise_flatMap]
  constructor
  · intro ar har
    obtain ⟨k, hk⟩ := List.mem_iff_getElem?.1 har
    rw [List.pairwise_flatMap]
    constructor
    · intro c _
      rw [List.pairwise_map, List.pairwise_reverse, List.pairwise_iff_getElem]
      intro i j hi hj hij hh
      have h1 : rowOf w.archetypes k i = some ar.entities[i] := by unfold rowOf; rw [hk]; exact List.getElem?_eq_getElem hi
      have h2 : rowOf w.archetypes k j = some ar.entities[i] := by
        unfold rowOf; rw [hk]; simp only [Prod.mk.injEq, and_true] at hh; rw [← hh]; exact List.getElem?_eq_getElem hj
      obtain ⟨_, h3⟩ := h.row_inj h1 h2
      omega
    · refine ((h.shape ar har).sorted.nodup).imp ?_
      intro c d hcd x hx y hy hxy
      obtain ⟨_, _, rfl⟩ := List.mem_map.1 hx
      obtain ⟨_, _, rfl⟩ := List.mem_map.1 hy
      injection hxy with _ hxy
      exact hcd hxy
  · rw [List.pairwise_iff_getElem]
    intro i j hi hj hij x hx y hy hxy
    subst hxy
    simp only [List.mem_flatMap, List.mem_map, List.mem_reverse] at hx hy
    obtain ⟨_, _, e, he, rfl⟩ := hx
    obtain ⟨_, _, e', he', heq⟩ := hy
    injection heq with heq _
    subst heq
    obtain ⟨r, hr⟩ := List.mem_iff_getElem?.1 he
    obtain ⟨q, hq⟩ := List.mem_iff_getElem?.1 he'
    have h1 : rowOf w.archetypes i r = some e' := by unfold rowOf; rw [List.getElem?_eq_getElem hi]; exact hr
    have h2 : rowOf w.archetypes j q = some e' := by unfold rowOf; rw [List.getElem?_eq_getElem hj]; exact hq
    obtain ⟨h3, _⟩ := h.row_inj h1 h2
    omega

end Ellecs.WorldSpec
