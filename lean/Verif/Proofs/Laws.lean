import Verif.Proofs.Refine
/-!
# Laws of the map world
-/
namespace Ellecs
namespace AWorld

/-- What a call that concerns one entity does: its result, the new values of the entity, the components used from now on
and the components that get locks. -/
structure Eff where
  res : Except Fault Unit
  row : EcsId → Option Bytes
  us : List EcsId
  ls : List EcsId

def apply (e : EcsId) (E : Eff) (a : AWorld) : Except Fault Unit × AWorld :=
  (E.res, (({ a with cell := fun x y => if x = e then E.row y else a.cell x y }).use E.us).addLocks E.ls)

theorem ext' {a b : AWorld} (h1 : a.ents = b.ents) (h2 : a.types = b.types) (h3 : ∀ x, a.info x = b.info x) (h4 : ∀ x y, a.cell x y = b.cell x y)
    (h5 : ∀ x, a.used x = b.used x) (h6 : ∀ x, a.lock x = b.lock x) : a = b := by
  obtain ⟨a1, a2, a3, a4, a5, a6⟩ := a
  obtain ⟨b1, b2, b3, b4, b5, b6⟩ := b
  have e3 : a3 = b3 := funext h3
  have e4 : a4 = b4 := funext (fun x => funext (h4 x))
  have e5 : a5 = b5 := funext h5
  have e6 : a6 = b6 := funext h6
  subst h1 h2 e3 e4 e5 e6
  rfl

theorem apply_comm {e e' : EcsId} (hne : e ≠ e') (E E' : Eff) (a : AWorld) :
    (apply e' E' (apply e E a).2).2 = (apply e E (apply e' E' a).2).2 := by
  refine ext' rfl rfl (fun _ => rfl) ?_ ?_ ?_
  · intro x y
    simp only [apply, addLocks, use]
    by_cases h1 : x = e
    · subst h1; simp [hne]
    · simp [h1]
  · intro x
    simp only [apply, addLocks, use]
    cases a.used x <;> cases E.us.contains x <;> cases E'.us.contains x <;> rfl
  · intro x
    simp only [apply, addLocks, use]
    by_cases h1 : x ∈ E.ls <;> by_cases h2 : x ∈ E'.ls <;> by_cases h3 : a.lock x = none <;> simp [h1, h2, h3]

/-- The effect of `c` on `e` depends on this only. -/
structure Reads where
  ents : Entities
  types : Ty → Option EcsId
  info : EcsId → Option ComponentMeta
  row : EcsId → Option Bytes

def reads (e : EcsId) (a : AWorld) : Reads := ⟨a.ents, a.types, a.info, a.cell e⟩

theorem reads_apply {e e' : EcsId} (hne : e ≠ e') (E : Eff) (a : AWorld) : reads e (apply e' E a).2 = reads e a := by
  unfold reads apply addLocks use
  simp [hne]

/-- A step that concerns one entity. -/
def LocalStep (e : EcsId) (s : AWorld → Except Fault Unit × AWorld) (P : AWorld → Prop) : Prop :=
  ∃ F : Reads → Eff, ∀ a, P a → s a = apply e (F (reads e a)) a

theorem apply_nothing (e : EcsId) (a : AWorld) (r : Except Fault Unit) : apply e ⟨r, a.cell e, [], []⟩ a = (r, a) := by
  unfold apply
  refine Prod.ext rfl (ext' rfl rfl (fun _ => rfl) ?_ ?_ ?_)
  · intro x y
    show (if x = e then a.cell e y else a.cell x y) = _
    by_cases h : x = e
    · subst h; simp
    · simp [h]
  · intro x; simp [addLocks, use]
  · intro x; simp [addLocks, use]

theorem local_comm {e e' : EcsId} (hne : e ≠ e') {s s' : AWorld → Except Fault Unit × AWorld} {P P' : AWorld → Prop}
    (h : LocalStep e s P) (h' : LocalStep e' s' P') (hP : ∀ a, P a → P (s' a).2) (hP' : ∀ a, P' a → P' (s a).2) (a : AWorld) (ha : P a) (ha' : P' a) :
    (s a).1 = (s (s' a).2).1 ∧ (s' a).1 = (s' (s a).2).1 ∧ (s' (s a).2).2 = (s (s' a).2).2 := by
  obtain ⟨F, hF⟩ := h
  obtain ⟨F', hF'⟩ := h'
  have p1 := hP a ha
  have p2 := hP' a ha'
  have e1 := hF a ha
  have e2 := hF' a ha'
  have e3 := hF _ p1
  have e4 := hF' _ p2
  rw [e2, reads_apply hne] at e3
  rw [e1, reads_apply (Ne.symm hne)] at e4
  rw [e1, e2, e3, e4]
  exact ⟨rfl, rfl, apply_comm hne _ _ _⟩

/-! ### the calls -/

theorem isAlive_reads (a : AWorld) (e x : EcsId) : a.isAlive x = (reads e a).ents.isAlive x := rfl

/-- `add_component_dynamic_with_data` -/
def addEff (e c : EcsId) (src : Bytes) (r : Reads) : Eff :=
  match r.ents.isAlive e with
  | .error f => ⟨.error f, r.row, [], []⟩
  | .ok false => ⟨.ok (), r.row, [], []⟩
  | .ok true =>
    match r.ents.isAlive c with
    | .error f => ⟨.error f, r.row, [], []⟩
    | .ok false => ⟨.ok (), r.row, [], []⟩
    | .ok true =>
      match r.info e, r.row c, r.info c with
      | none, _, _ => ⟨.error .unwrapNone, r.row, [], []⟩
      | some _, some _, _ => ⟨.error .alreadyPresent, r.row, [], []⟩
      | some _, none, none => ⟨.error .unwrapNone, r.row, [], [c]⟩
      | some _, none, some m => ⟨.ok (), fun y => if y = c then some (src.take m.layout.size) else r.row y, [c], [c]⟩

theorem addDyn_eff (e c : EcsId) (src : Bytes) (a : AWorld) : a.addDyn e c src = apply e (addEff e c src (reads e a)) a := by
  unfold addDyn addEff isAlive
  simp only [reads]
  cases a.ents.isAlive e with
  | error f => exact (apply_nothing e a _).symm
  | ok b =>
    cases b with
    | false => exact (apply_nothing e a _).symm
    | true =>
      simp only
      cases a.ents.isAlive c with
      | error f => exact (apply_nothing e a _).symm
      | ok b =>
        cases b with
        | false => exact (apply_nothing e a _).symm
        | true =>
          simp only
          cases a.info e with
          | none => exact (apply_nothing e a _).symm
          | some me =>
            cases hc : a.cell e c with
            | some bs => exact (apply_nothing e a _).symm
            | none =>
              cases a.info c with
              | none =>
                refine Prod.ext rfl (ext' rfl rfl (fun _ => rfl) ?_ ?_ ?_)
                · intro x y
                  simp only [apply, addLocks, use]
                  by_cases h : x = e
                  · subst h; simp
                  · simp [h]
                · intro x; simp [apply, addLocks, use]
                · intro x; simp [apply, addLocks, use]
              | some m =>
                refine Prod.ext rfl (ext' rfl rfl (fun _ => rfl) ?_ (fun _ => rfl) (fun _ => rfl))
                intro x y
                simp only [apply, addLocks, use]
                by_cases h : x = e
                · subst h; simp
                · simp [h]

/-- `remove_component_dynamic` -/
def removeEff (e c : EcsId) (r : Reads) : Eff :=
  match r.ents.isAlive e with
  | .error f => ⟨.error f, r.row, [], []⟩
  | .ok false => ⟨.ok (), r.row, [], []⟩
  | .ok true =>
    match r.ents.isAlive c with
    | .error f => ⟨.error f, r.row, [], []⟩
    | .ok false => ⟨.ok (), r.row, [], []⟩
    | .ok true =>
      match r.info e, r.row c with
      | none, _ => ⟨.error .unwrapNone, r.row, [], []⟩
      | some _, none => ⟨.error .notPresent, r.row, [], []⟩
      | some _, some _ => ⟨.ok (), fun y => if y = c then none else r.row y, [], []⟩

theorem apply_cell {e c : EcsId} {a : AWorld} (v : Option Bytes) :
    ((.ok (), { a with cell := fun x y => if x = e ∧ y = c then v else a.cell x y }) : Except Fault Unit × AWorld) =
      apply e ⟨.ok (), fun y => if y = c then v else a.cell e y, [], []⟩ a := by
  refine Prod.ext rfl (ext' rfl rfl (fun _ => rfl) ?_ ?_ ?_)
  · intro x y
    simp only [apply, addLocks, use]
    by_cases h : x = e
    · subst h; simp
    · simp [h]
  · intro x; simp [apply, addLocks, use]
  · intro x; simp [apply, addLocks, use]

theorem removeDyn_eff (e c : EcsId) (a : AWorld) : a.removeDyn e c = apply e (removeEff e c (reads e a)) a := by
  unfold removeDyn removeEff isAlive
  simp only [reads]
  cases a.ents.isAlive e with
  | error f => exact (apply_nothing e a _).symm
  | ok b =>
    cases b with
    | false => exact (apply_nothing e a _).symm
    | true =>
      simp only
      cases a.ents.isAlive c with
      | error f => exact (apply_nothing e a _).symm
      | ok b =>
        cases b with
        | false => exact (apply_nothing e a _).symm
        | true =>
          simp only
          cases a.info e with
          | none => exact (apply_nothing e a _).symm
          | some me =>
            cases hc : a.cell e c with
            | none => exact (apply_nothing e a _).symm
            | some bs => exact apply_cell none

def writeEff (e c : EcsId) (bs : Bytes) (r : Reads) : Eff :=
  match r.ents.isAlive e with
  | .error f => ⟨.error f, r.row, [], []⟩
  | .ok false => ⟨.ok (), r.row, [], []⟩
  | .ok true =>
    match r.ents.isAlive c with
    | .error f => ⟨.error f, r.row, [], []⟩
    | .ok false => ⟨.ok (), r.row, [], []⟩
    | .ok true =>
      match r.info e, r.row c with
      | none, _ => ⟨.ok (), r.row, [], []⟩
      | some _, none => ⟨.error .indexOob, r.row, [], []⟩
      | some _, some _ => ⟨.ok (), fun y => if y = c then some bs else r.row y, [], []⟩

theorem write_eff (e c : EcsId) (bs : Bytes) (a : AWorld) : a.write e c bs = apply e (writeEff e c bs (reads e a)) a := by
  unfold write writeEff isAlive
  simp only [reads]
  cases a.ents.isAlive e with
  | error f => exact (apply_nothing e a _).symm
  | ok b =>
    cases b with
    | false => exact (apply_nothing e a _).symm
    | true =>
      simp only
      cases a.ents.isAlive c with
      | error f => exact (apply_nothing e a _).symm
      | ok b =>
        cases b with
        | false => exact (apply_nothing e a _).symm
        | true =>
          simp only
          cases a.info e with
          | none => exact (apply_nothing e a _).symm
          | some me =>
            cases hc : a.cell e c with
            | none => exact (apply_nothing e a _).symm
            | some _ => exact apply_cell (some bs)

def zstEff (e c : EcsId) (r : Reads) : Eff :=
  match r.ents.isAlive e with
  | .error f => ⟨.error f, r.row, [], []⟩
  | .ok false => ⟨.error .notAlive, r.row, [], []⟩
  | .ok true =>
    match r.ents.isAlive c with
    | .error f => ⟨.error f, r.row, [], []⟩
    | .ok false => ⟨.error .notAlive, r.row, [], []⟩
    | .ok true =>
      match r.info c with
      | none => ⟨.error .unwrapNone, r.row, [], []⟩
      | some m => if m.layout.size ≠ 0 then ⟨.error .componentHasData, r.row, [], []⟩ else addEff e c [] r

theorem addZst_eff (e c : EcsId) (a : AWorld) : a.addZst e c = apply e (zstEff e c (reads e a)) a := by
  unfold addZst zstEff
  rw [addDyn_eff]
  unfold isAlive
  cases h1 : a.ents.isAlive e with
  | error f => simp only [reads, h1]; exact (apply_nothing e a _).symm
  | ok b =>
    cases b with
    | false => simp only [reads, h1]; exact (apply_nothing e a _).symm
    | true =>
      cases h2 : a.ents.isAlive c with
      | error f => simp only [reads, h1, h2]; exact (apply_nothing e a _).symm
      | ok b =>
        cases b with
        | false => simp only [reads, h1, h2]; exact (apply_nothing e a _).symm
        | true =>
          cases h3 : a.info c with
          | none => simp only [reads, h1, h2, h3]; exact (apply_nothing e a _).symm
          | some m =>
            by_cases hz : m.layout.size ≠ 0
            · simp only [reads, h1, h2, h3, if_pos hz]; exact (apply_nothing e a _).symm
            · simp only [reads, h1, h2, h3, if_neg hz]

/-- `add_component` of a registered type -/
def addTEff (e : EcsId) (t : Ty) (v : Bytes) (r : Reads) : Eff :=
  match r.ents.isAlive e, r.types t with
  | .error f, _ => ⟨.error f, r.row, [], []⟩
  | .ok false, _ => ⟨.error .notAlive, r.row, [], []⟩
  | .ok true, none => ⟨.ok (), r.row, [], []⟩
  | .ok true, some c => addEff e c v r

theorem addComponent_eff (e : EcsId) (t : Ty) (v : Bytes) (a : AWorld) (ht : a.types t ≠ none) :
    a.addComponent e t v = apply e (addTEff e t v (reads e a)) a := by
  obtain ⟨c, ht⟩ := Option.ne_none_iff_exists'.1 ht
  unfold addComponent register addTEff
  simp only [ht]
  rw [addDyn_eff]
  unfold isAlive
  cases h1 : a.ents.isAlive e with
  | error f => simp only [reads, h1]; exact (apply_nothing e a _).symm
  | ok b =>
    cases b with
    | false => simp only [reads, h1]; exact (apply_nothing e a _).symm
    | true => simp only [reads, h1, ht]

def removeTEff (e : EcsId) (t : Ty) (r : Reads) : Eff :=
  match r.ents.isAlive e, r.types t with
  | .error f, _ => ⟨.error f, r.row, [], []⟩
  | .ok false, _ => ⟨.error .notAlive, r.row, [], []⟩
  | .ok true, none => ⟨.ok (), r.row, [], []⟩
  | .ok true, some c => removeEff e c r

theorem removeComponent_eff (e : EcsId) (t : Ty) (a : AWorld) (ht : a.types t ≠ none) :
    a.removeComponent e t = apply e (removeTEff e t (reads e a)) a := by
  obtain ⟨c, ht⟩ := Option.ne_none_iff_exists'.1 ht
  unfold removeComponent register removeTEff
  simp only [ht]
  rw [removeDyn_eff]
  unfold isAlive
  cases h1 : a.ents.isAlive e with
  | error f => simp only [reads, h1]; exact (apply_nothing e a _).symm
  | ok b =>
    cases b with
    | false => simp only [reads, h1]; exact (apply_nothing e a _).symm
    | true => simp only [reads, h1, ht]

/-- The type a call names. -/
def typeOf : World.Call → Option Ty
  | .addComponent _ t _ => some t
  | .removeComponent _ t => some t
  | _ => none

/-- Calls about one entity. -/
theorem local_step {e : EcsId} {c : World.Call} (h : World.Concerns e c) :
    LocalStep e (fun a => a.step c) (fun a => ∀ t, typeOf c = some t → a.types t ≠ none) := by
  cases c with
  | addComponent x t v => cases h; exact ⟨addTEff e t v, fun a ha => addComponent_eff e t v a (ha t rfl)⟩
  | removeComponent x t => cases h; exact ⟨removeTEff e t, fun a ha => removeComponent_eff e t a (ha t rfl)⟩
  | addDynamic x c => cases h; exact ⟨zstEff e c, fun a _ => addZst_eff e c a⟩
  | addDynamicWithData x c src => cases h; exact ⟨addEff e c src, fun a _ => addDyn_eff e c src a⟩
  | removeDynamic x c => cases h; exact ⟨removeEff e c, fun a _ => removeDyn_eff e c a⟩
  | write x c bs => cases h; exact ⟨writeEff e c bs, fun a _ => write_eff e c bs a⟩
  | spawn _ _ => exact absurd h id
  | despawn _ => exact absurd h id
  | register _ => exact absurd h id
  | query _ _ => exact absurd h id
  | queryDynamic _ _ => exact absurd h id

theorem step_types {e : EcsId} {c : World.Call} (h : World.Concerns e c) {a : AWorld} (ha : ∀ t, typeOf c = some t → a.types t ≠ none) :
    (a.step c).2.types = a.types := by
  obtain ⟨F, hF⟩ := local_step h
  have := hF a ha
  simp only at this
  rw [this]; rfl

theorem step_comm {e e' : EcsId} (hne : e ≠ e') {c c' : World.Call} (h : World.Concerns e c) (h' : World.Concerns e' c') {a : AWorld}
    (ha : ∀ t, typeOf c = some t → a.types t ≠ none) (ha' : ∀ t, typeOf c' = some t → a.types t ≠ none) :
    (a.step c).1 = ((a.step c').2.step c).1 ∧ (a.step c').1 = ((a.step c).2.step c').1 ∧ ((a.step c).2.step c').2 = ((a.step c').2.step c).2 := by
  obtain ⟨F, hF⟩ := local_step h
  obtain ⟨F', hF'⟩ := local_step h'
  have q1 := hF a ha
  have q2 := hF' a ha'
  have q3 := hF (a.step c').2 (fun t ht => by rw [step_types h' ha']; exact ha t ht)
  have q4 := hF' (a.step c).2 (fun t ht => by rw [step_types h ha]; exact ha' t ht)
  simp only at q1 q2 q3 q4
  rw [q3, q4, q1, q2, reads_apply hne, reads_apply (Ne.symm hne)]
  exact ⟨rfl, rfl, apply_comm hne _ _ _⟩

/-- Adding a component and removing it again. -/
theorem add_remove {a a1 a2 : AWorld} {e c : EcsId} {src : Bytes} (he : a.isAlive e = .ok true) (hc : a.isAlive c = .ok true)
    (h1 : a.addDyn e c src = (.ok (), a1)) (h2 : a1.removeDyn e c = (.ok (), a2)) : a2 = (a.use [c]).addLocks [c] := by
  unfold addDyn at h1
  rw [he, hc] at h1
  simp only at h1
  cases hie : a.info e with
  | none => rw [hie] at h1; cases h1
  | some me =>
    cases hcell : a.cell e c with
    | some bs => rw [hie, hcell] at h1; cases h1
    | none =>
      cases hic : a.info c with
      | none => rw [hie, hcell, hic] at h1; cases h1
      | some m =>
        rw [hie, hcell, hic] at h1
        simp only [Prod.mk.injEq, true_and] at h1
        subst h1
        unfold removeDyn at h2
        have he' : AWorld.isAlive ((({ a with cell := fun x y => if x = e ∧ y = c then some (src.take m.layout.size) else a.cell x y }).use [c]).addLocks [c]) e = .ok true := he
        have hc' : AWorld.isAlive ((({ a with cell := fun x y => if x = e ∧ y = c then some (src.take m.layout.size) else a.cell x y }).use [c]).addLocks [c]) c = .ok true := hc
        rw [he', hc'] at h2
        simp only [addLocks, use, hie, and_self, if_true, Prod.mk.injEq, true_and] at h2
        subst h2
        refine ext' rfl rfl (fun _ => rfl) ?_ (fun _ => rfl) (fun _ => rfl)
        intro x y
        simp only [addLocks, use]
        by_cases hx : x = e ∧ y = c
        · obtain ⟨rfl, rfl⟩ := hx; simp [hcell]
        · simp [hx]

/-- Two writes in a row: the second one counts. -/
theorem write_write {a : AWorld} {e c : EcsId} {x y : Bytes} : ((a.write e c x).2.write e c y) = a.write e c y := by
  unfold write
  cases he : a.isAlive e with
  | error f => simp only [he]
  | ok b =>
    cases b with
    | false => simp only [he]
    | true =>
      cases hc : a.isAlive c with
      | error f => simp only [he, hc]
      | ok b =>
        cases b with
        | false => simp only [he, hc]
        | true =>
          cases hie : a.info e with
          | none => simp only [he, hc, hie]
          | some m =>
            cases hcell : a.cell e c with
            | none => simp only [he, hc, hie, hcell]
            | some bs =>
              have he' : AWorld.isAlive { a with cell := fun x' y' => if x' = e ∧ y' = c then some x else a.cell x' y' } e = .ok true := he
              have hc' : AWorld.isAlive { a with cell := fun x' y' => if x' = e ∧ y' = c then some x else a.cell x' y' } c = .ok true := hc
              simp only [he', hc', hie, and_self, if_true]
              refine Prod.ext rfl (ext' rfl rfl (fun _ => rfl) ?_ (fun _ => rfl) (fun _ => rfl))
              intro x' y'
              by_cases hx : x' = e ∧ y' = c
              · simp [hx]
              · simp [hx]

theorem use_used {a : AWorld} {c : EcsId} (h : a.used c = true) (hl : a.lock c ≠ none) : (a.use [c]).addLocks [c] = a := by
  refine ext' rfl rfl (fun _ => rfl) (fun _ _ => rfl) ?_ ?_
  · intro x
    simp only [addLocks, use]
    by_cases hx : x = c
    · subst hx; simp [h]
    · simp [hx]
  · intro x
    simp only [addLocks, use]
    by_cases hx : x = c
    · subst hx; simp [hl]
    · simp [hx]

end AWorld
end Ellecs
