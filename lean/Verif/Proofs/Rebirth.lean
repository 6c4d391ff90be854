import Verif.Spec.Rebirth
import Verif.Proofs.Endless
/-!
# The generations of a slot during a conversation
-/
namespace Ellecs
namespace World
open WorldSpec

/-! ## The allocator -/

/-- The allocator hands out ids and takes back some of `P`. -/
inductive Moves (P : EcsId → Prop) : Entities → Entities → Prop
  | refl (s : Entities) : Moves P s s
  | spawn {s s' : Entities} : Moves P s s' → Moves P s s'.spawn.2
  | despawn {s s' s'' : Entities} (e : EcsId) (b : Bool) : Moves P s s' → P e → s'.despawn e = .ok (b, s'') → Moves P s s''

theorem Moves.trans {P : EcsId → Prop} {s s' s'' : Entities} (h : Moves P s s') (h' : Moves P s' s'') : Moves P s s'' := by
  induction h' with
  | refl => exact h
  | spawn _ ih => exact .spawn ih
  | despawn e b _ hp hd ih => exact .despawn e b ih hp hd

/-- Since the slot `n` had generation `g` it was taken back with all generations from `g` on before the present one. -/
def Aged (n : BitVec 32) (g : BitVec 32) (D : EcsId → Prop) (s : Entities) : Prop :=
  ∃ k al, s.generations[n.toNat]? = some (al, g + BitVec.ofNat 32 k) ∧ (∀ j, j < k → D ⟨g + BitVec.ofNat 32 j, n⟩) ∧
    (al = false → D ⟨g + BitVec.ofNat 32 k, n⟩)

theorem Aged.imp {n g : BitVec 32} {D D' : EcsId → Prop} {s : Entities} (h : Aged n g D s) (hd : ∀ e, D e → D' e) : Aged n g D' s := by
  obtain ⟨k, al, h1, h2, h3⟩ := h
  exact ⟨k, al, h1, fun j hj => hd _ (h2 j hj), fun hh => hd _ (h3 hh)⟩

/-- What handing out an id does to one slot. -/
theorem spawn_slot (s : Entities) (n : BitVec 32) :
    s.spawn.2.generations[n.toNat]? = s.generations[n.toNat]? ∨
    (∃ g, s.generations[n.toNat]? = some (false, g) ∧ s.spawn.2.generations[n.toNat]? = some (true, g + 1)) ∨
    (s.generations[n.toNat]? = none ∧ s.spawn.2.generations[n.toNat]? = some (true, 0)) := by
  unfold Entities.spawn
  cases hd : s.despawned with
  | nil =>
    simp only
    have key : (s.generations ++ [(true, 0#32)])[n.toNat]? = s.generations[n.toNat]? ∨
        (s.generations[n.toNat]? = none ∧ (s.generations ++ [(true, 0#32)])[n.toNat]? = some (true, 0)) := by
      by_cases hn : n.toNat < s.generations.length
      · left; rw [List.getElem?_append_left hn]
      · by_cases hn' : n.toNat = s.generations.length
        · right
          exact ⟨List.getElem?_eq_none (by omega), by rw [List.getElem?_append_right (by omega), hn']; simp⟩
        · left
          rw [List.getElem?_eq_none (by simp only [List.length_append, List.length_singleton]; omega), List.getElem?_eq_none (by omega)]
    split <;> exact key.imp id Or.inr
  | cons i rest =>
    simp only
    cases hg : s.generations[i]? with
    | none => exact Or.inl rfl
    | some p =>
      obtain ⟨al, g⟩ := p
      simp only
      cases al with
      | true => exact Or.inl rfl
      | false =>
        have hlt := (List.getElem?_eq_some_iff.1 hg).1
        have key : (s.generations.set i (true, g + 1))[n.toNat]? = s.generations[n.toNat]? ∨
            ∃ g, s.generations[n.toNat]? = some (false, g) ∧ (s.generations.set i (true, g + 1))[n.toNat]? = some (true, g + 1) := by
          by_cases hn : i = n.toNat
          · subst hn; exact Or.inr ⟨g, hg, by rw [List.getElem?_set_self hlt]⟩
          · left; rw [List.getElem?_set_ne hn]
        simp only [Bool.false_eq_true, if_false]
        split
        · rcases key with h | ⟨g', h1, h2⟩
          · exact Or.inl h
          · exact Or.inr (Or.inl ⟨g', h1, by
              rcases Nat.decEq i n.toNat with hn | hn
              · rw [List.getElem?_set_ne hn] at h2; rw [h1] at h2; cases h2
              · subst hn; rw [hg] at h1; cases h1; rw [List.getElem?_set_self hlt]⟩)
        · rcases key with h | ⟨g', h1, h2⟩
          · exact Or.inl h
          · exact Or.inr (Or.inl ⟨g', h1, by
              rcases Nat.decEq i n.toNat with hn | hn
              · rw [List.getElem?_set_ne hn] at h2; rw [h1] at h2; cases h2
              · subst hn; rw [hg] at h1; cases h1; rw [List.getElem?_set_self hlt]⟩)

/-- What taking back an id does to one slot. -/
theorem despawn_slot {s s' : Entities} {e : EcsId} {b : Bool} (h : s.despawn e = .ok (b, s')) (n : BitVec 32) :
    s'.generations[n.toNat]? = s.generations[n.toNat]? ∨
    (e.idx = n ∧ s.generations[n.toNat]? = some (true, e.gen) ∧ s'.generations[n.toNat]? = some (false, e.gen)) := by
  unfold Entities.despawn Entities.isAlive at h
  cases hg : s.generations[e.uindex]? with
  | none => simp only [hg] at h; cases h
  | some p =>
    obtain ⟨al, g⟩ := p
    simp only [hg] at h
    cases hal : (al && e.gen == g) with
    | false => simp only [hal] at h; cases h; exact Or.inl rfl
    | true =>
      simp only [hal] at h
      simp only [Bool.and_eq_true, beq_iff_eq] at hal
      obtain ⟨rfl, rfl⟩ := hal
      cases h
      have hlt := (List.getElem?_eq_some_iff.1 hg).1
      by_cases hn : e.idx = n
      · right
        subst hn
        exact ⟨rfl, hg, by simp only; exact List.getElem?_set_self hlt⟩
      · left
        simp only
        rw [List.getElem?_set_ne]
        intro hh
        exact hn (BitVec.eq_of_toNat_eq hh)

theorem Aged.spawn {n g : BitVec 32} {D : EcsId → Prop} {s : Entities} (h : Aged n g D s) : Aged n g D s.spawn.2 := by
  obtain ⟨k, al, h1, h2, h3⟩ := h
  rcases spawn_slot s n with hs | ⟨g', hs, hs'⟩ | ⟨hs, _⟩
  · exact ⟨k, al, by rw [hs, h1], h2, h3⟩
  · rw [h1] at hs
    cases hs
    refine ⟨k + 1, true, ?_, fun j hj => ?_, fun hh => by cases hh⟩
    · rw [hs', BitVec.ofNat_add, BitVec.add_assoc]; rfl
    · rcases Nat.lt_succ_iff_lt_or_eq.1 hj with hj | rfl
      · exact h2 j hj
      · exact h3 rfl
  · rw [h1] at hs; cases hs

theorem Aged.moves {n g : BitVec 32} {D P : EcsId → Prop} {s s' : Entities} (hm : Moves P s s') (h : Aged n g D s) :
    Aged n g (fun e => D e ∨ P e) s' := by
  induction hm with
  | refl => exact h.imp (fun _ => Or.inl)
  | spawn _ ih => exact ih.spawn
  | despawn e b _ hp hd ih =>
    obtain ⟨k, al, h1, h2, h3⟩ := ih
    rcases despawn_slot hd n with hs | ⟨hn, hs, hs'⟩
    · exact ⟨k, al, by rw [hs, h1], h2, h3⟩
    · rw [h1] at hs
      injection hs with hs
      injection hs with hs1 hs2
      subst hs1 hn
      refine ⟨k, false, by rw [hs', hs2], h2, fun _ => Or.inr ?_⟩
      rw [hs2]; exact hp

/-! ## The maps -/

namespace AW

theorem register_moves (t : Ty) (a : AWorld) (P : EcsId → Prop) : Moves P a.ents (a.register t).2.ents := by
  unfold AWorld.register
  cases a.types t with
  | some id => exact .refl _
  | none =>
    simp only
    unfold AWorld.spawnId
    cases hs : a.ents.spawn with
    | mk r s =>
      have : s = a.ents.spawn.2 := by rw [hs]
      cases r with
      | ok e => simp only; rw [this]; exact .spawn (.refl _)
      | error f => simp only; rw [this]; exact .spawn (.refl _)

theorem addDyn_ents (e c : EcsId) (src : Bytes) (a : AWorld) : (a.addDyn e c src).2.ents = a.ents := by
  unfold AWorld.addDyn AWorld.addLocks AWorld.use
  split <;> try rfl
  split <;> try rfl
  split <;> rfl

theorem removeDyn_ents (e c : EcsId) (a : AWorld) : (a.removeDyn e c).2.ents = a.ents := by
  unfold AWorld.removeDyn
  split <;> try rfl
  split <;> try rfl
  split <;> rfl

theorem addZst_ents (e c : EcsId) (a : AWorld) : (a.addZst e c).2.ents = a.ents := by
  unfold AWorld.addZst
  split <;> try rfl
  split <;> try rfl
  split <;> try rfl
  split
  · rfl
  · exact addDyn_ents e c [] a

theorem write_ents (e c : EcsId) (bs : Bytes) (a : AWorld) : (a.write e c bs).2.ents = a.ents := by
  unfold AWorld.write
  split <;> try rfl
  split <;> try rfl
  split <;> rfl

theorem lockAll_ents (b : Bool) (fs : List Fetch) (p : Bool) (a : AWorld) : (a.lockAll b fs p).2.ents = a.ents := by
  unfold AWorld.lockAll AWorld.poison
  split
  · rfl
  · simp only; split <;> rfl

theorem query_ents (ps : List Param) (p : Bool) (a : AWorld) : (a.query ps p).2.ents = a.ents := by
  unfold AWorld.query
  split
  · rfl
  · exact lockAll_ents ..

theorem give_ents (c : EcsId) (v : Bytes) (b : AWorld.Draft) (a : AWorld) : (a.give c v b).2.ents = a.ents := by
  unfold AWorld.give
  split <;> try rfl
  split <;> rfl

theorem addComponent_moves (e : EcsId) (t : Ty) (v : Bytes) (a : AWorld) (P : EcsId → Prop) : Moves P a.ents (a.addComponent e t v).2.ents := by
  unfold AWorld.addComponent
  split <;> try exact .refl _
  have h := register_moves t a P
  split
  · next h' => rw [h'] at h; exact h
  · next h' => rw [h'] at h; rw [addDyn_ents]; exact h

theorem removeComponent_moves (e : EcsId) (t : Ty) (a : AWorld) (P : EcsId → Prop) : Moves P a.ents (a.removeComponent e t).2.ents := by
  unfold AWorld.removeComponent
  split <;> try exact .refl _
  have h := register_moves t a P
  split
  · next h' => rw [h'] at h; exact h
  · next h' => rw [h'] at h; rw [removeDyn_ents]; exact h

theorem act_moves (b : AWorld.Draft) (x : BAct) (a : AWorld) (P : EcsId → Prop) : Moves P a.ents (a.act b x).2.ents := by
  unfold AWorld.act
  cases x with
  | «with» t v =>
    simp only
    have h := register_moves t a P
    split
    · next h' => rw [h'] at h; exact h
    · next h' => rw [h'] at h; rw [give_ents]; exact h
  | withDynamicWithData c v => simp only; rw [give_ents]; exact .refl _
  | withDynamic c =>
    simp only
    split <;> try exact .refl _
    split <;> try exact .refl _
    split <;> exact .refl _
  | build => exact .refl _

theorem acts_moves (xs : List BAct) (P : EcsId → Prop) : ∀ (b : AWorld.Draft) (a : AWorld), Moves P a.ents (AWorld.acts b xs a).2.ents := by
  induction xs with
  | nil => intro b a; exact .refl _
  | cons x xs ih =>
    intro b a
    unfold AWorld.acts
    have h := act_moves b x a P
    split
    · next h' => rw [h'] at h; exact h
    · next h' => rw [h'] at h; exact h.trans (ih _ _)

/-- The entity of a builder gets the first id. -/
theorem spawn_moves (kind : SpawnKind) (xs : List BAct) (a : AWorld) (P : EcsId → Prop) : Moves P a.ents.spawn.2 (a.spawn kind xs).2.ents ∧
    ∀ e, (a.spawn kind xs).1 = .ok e → a.ents.spawn.1 = .ok e := by
  unfold AWorld.spawn AWorld.spawnId
  cases hs : a.ents.spawn with
  | mk r s =>
    cases r with
    | error f => exact ⟨.refl _, fun e h => by cases h⟩
    | ok e =>
      simp only
      have h := acts_moves xs P ⟨e, AWorld.metaOf kind, []⟩ { a with ents := s }
      split
      · next h' => rw [h'] at h; exact ⟨h, fun e h => by cases h⟩
      · next h' => rw [h'] at h; exact ⟨h, fun e h => by cases h; rfl⟩

theorem despawn_moves (e : EcsId) (a : AWorld) : Moves (fun x => x = e ∧ (a.despawn e).1 = .ok true) a.ents (a.despawn e).2.ents := by
  unfold AWorld.despawn
  split <;> try exact .refl _
  split
  · exact .refl _
  · split <;> try exact .refl _
    next h' => exact .despawn e _ (.refl _) ⟨rfl, rfl⟩ h'

theorem void_snd {α : Type} (r : Except Fault α × AWorld) : (AWorld.void r).2 = r.2 := by
  unfold AWorld.void
  split <;> rfl

theorem void_fst {α : Type} (r : Except Fault α × AWorld) : (AWorld.void r).1 = r.1.map (fun _ => ()) := by
  unfold AWorld.void
  split <;> rfl

end AW

/-- One question. -/
theorem ask_moves (q : Ask) (a : AWorld) : Moves (Kills (q, (a.ask q).1)) a.ents (a.ask q).2.ents := by
  have mono : ∀ {P Q : EcsId → Prop} {s s' : Entities}, (∀ e, P e → Q e) → Moves P s s' → Moves Q s s' := by
    intro P Q s s' hpq h
    induction h with
    | refl => exact .refl _
    | spawn _ ih => exact .spawn ih
    | despawn e b _ hp hd ih => exact .despawn e b ih (hpq _ hp) hd
  cases q with
  | spawn kind acts => exact (Moves.spawn (.refl _)).trans (AW.spawn_moves kind acts a _).1
  | despawn e =>
    refine mono ?_ (AW.despawn_moves e a)
    rintro x ⟨rfl, hx⟩
    left
    show (Ask.despawn x, Except.map Answer.bool (a.despawn x).1) = _
    rw [hx]; rfl
  | register t => exact AW.register_moves t a _
  | isAlive e => exact .refl _
  | has t e => exact .refl _
  | look e c n => exact .refl _
  | call c =>
    show Moves _ a.ents (a.step c).2.ents
    cases c with
    | spawn kind acts => unfold AWorld.step; rw [AW.void_snd]; exact (Moves.spawn (.refl _)).trans (AW.spawn_moves kind acts a _).1
    | addComponent e t v => exact AW.addComponent_moves e t v a _
    | removeComponent e t => exact AW.removeComponent_moves e t a _
    | addDynamic e c => unfold AWorld.step; rw [AW.addZst_ents]; exact .refl _
    | addDynamicWithData e c src => unfold AWorld.step; rw [AW.addDyn_ents]; exact .refl _
    | removeDynamic e c => unfold AWorld.step; rw [AW.removeDyn_ents]; exact .refl _
    | despawn e =>
      unfold AWorld.step; rw [AW.void_snd]
      refine mono ?_ (AW.despawn_moves e a)
      rintro x ⟨rfl, hx⟩
      right
      show (Ask.call (.despawn x), Except.map (fun _ => Answer.unit) (AWorld.void (a.despawn x)).1) = _
      rw [AW.void_fst, hx]; rfl
    | register t => unfold AWorld.step; rw [AW.void_snd]; exact AW.register_moves t a _
    | write e c bs => unfold AWorld.step; rw [AW.write_ents]; exact .refl _
    | query ps p => unfold AWorld.step; rw [AW.query_ents]; exact .refl _
    | queryDynamic fs p => unfold AWorld.step; rw [AW.lockAll_ents]; exact .refl _

/-! ## Conversations -/

theorem ask_safe {q : Ask} {w : World} (hw : Safe w []) (hq : q.Ok w) :
    (∀ x w', q.exec w = .ok x w' → w'.NoFullType → Safe w' []) ∧ (∀ f w', q.exec w = .error f w' → ¬ Limit f → f ≠ .deadlock → w'.NoFullType → Safe w' []) := by
  obtain ⟨k1, k2⟩ := ask_asCall q w
  cases hc : q.asCall with
  | none =>
    obtain ⟨n1, n2⟩ := k2 hc
    refine ⟨fun x w' h _ => ?_, fun f w' h _ _ _ => ?_⟩
    · rw [n1 x w' h]; exact hw
    · rw [n2 f w' h]; exact hw
  | some c =>
    obtain ⟨n1, n2⟩ := k1 c hc
    have h1 := ask_callOk hq c hc
    exact ⟨fun x w' h hn => .ok c hw h1 (n1 x w' h) hn, fun f w' h hl hd hn => .panic c f hw h1 (n2 f w' h) hl hd hn⟩

/-- One question and its answer in the world. -/
theorem ask_world {q : Ask} {w w' : World} (hw : Safe w []) (hq : q.Ok w) :
    (∀ x, q.exec w = .ok x w' → Moves (Kills (q, .ok x)) w.entities w'.entities ∧ (w.view.ask q).1 = .ok x ∧ w'.Shows (w.view.ask q).2) ∧
    (∀ f, q.exec w = .error f w' → ¬ OutOfMemory f → Moves (Kills (q, .error f)) w.entities w'.entities) := by
  have hs := hw.inv
  have ha := view_shows hs.inv
  have hm := ask_moves q w.view
  rw [ha.ents] at hm
  refine ⟨fun x h => ?_, fun f h hf => ?_⟩
  · obtain ⟨s1, s2⟩ := (sim_ask hs.inv hs.ready hs.held ha hq).ok h
    rw [s1, s2.ents] at hm
    exact ⟨hm, s1, s2⟩
  · obtain ⟨s1, s2⟩ := ((sim_ask hs.inv hs.ready hs.held ha hq).error h).resolve_left hf
    rw [s1, s2.ents] at hm
    exact hm

theorem FreeTalk.safe {w w' : World} {tr : List (Ask × Except Fault Answer)} (hw : Safe w []) (h : FreeTalk w tr w') : Safe w' [] := by
  induction h with
  | done w => exact hw
  | ok h1 h2 h3 _ ih => exact ih ((ask_safe hw h1).1 _ _ h2 h3)
  | panic h1 h2 h3 h4 h5 _ ih => exact ih ((ask_safe hw h1).2 _ _ h2 (fun hh => h3 (Or.inl hh)) h4 h5)

/-- A property of the allocator that survives its moves survives conversations. -/
theorem FreeTalk.track {Q : (EcsId → Prop) → Entities → Prop} (hQ : ∀ {D P : EcsId → Prop} {s s' : Entities}, Moves P s s' → Q D s → Q (fun e => D e ∨ P e) s')
    {w w' : World} {tr : List (Ask × Except Fault Answer)} (hw : Safe w []) (h : FreeTalk w tr w') :
    ∀ {D : EcsId → Prop}, Q D w.entities → Q (fun e => D e ∨ Despawned tr e) w'.entities := by
  have fold : ∀ (D : EcsId → Prop) (p : Ask × Except Fault Answer) (rest : List (Ask × Except Fault Answer)),
      (fun e => (D e ∨ Kills p e) ∨ Despawned rest e) = (fun e => D e ∨ Despawned (p :: rest) e) := by
    intro D p rest
    funext e
    apply propext
    unfold Despawned
    simp only [List.mem_cons, exists_eq_or_imp, or_assoc]
  induction h with
  | done w =>
    intro D h
    have : (fun e => D e ∨ Despawned [] e) = (fun e => D e ∨ False) := by
      funext e; apply propext; unfold Despawned; simp
    rw [this]
    exact hQ (P := fun _ => False) (.refl _) h
  | @ok w w1 w2 q x rest h1 h2 h3 _ ih =>
    intro D h
    have := ih ((ask_safe hw h1).1 _ _ h2 h3) (hQ ((ask_world hw h1).1 x h2).1 h)
    rw [fold] at this; exact this
  | @panic w w1 w2 q x rest h1 h2 h3 h4 h5 _ ih =>
    intro D h
    have := ih ((ask_safe hw h1).2 _ _ h2 (fun hh => h3 (Or.inl hh)) h4 h5) (hQ ((ask_world hw h1).2 x h2 h3) h)
    rw [fold] at this; exact this

/-! ## Counting -/

theorem Moves.mono {P Q : EcsId → Prop} {s s' : Entities} (hpq : ∀ e, P e → Q e) (h : Moves P s s') : Moves Q s s' := by
  induction h with
  | refl => exact .refl _
  | spawn _ ih => exact .spawn ih
  | despawn e b _ hp hd ih => exact .despawn e b ih (hpq _ hp) hd

/-- How far a slot is in its present generation. -/
def halves (k : Nat) (al : Bool) : Nat := 2 * k + if al then 0 else 1

/-- Since the slot `n` had generation `g` it has moved on by at least `l` and at most `m` halves. -/
def Within (n g : BitVec 32) (l m : Nat) (s : Entities) : Prop :=
  ∃ k al, s.generations[n.toNat]? = some (al, g + BitVec.ofNat 32 k) ∧ l ≤ halves k al ∧ halves k al ≤ m

theorem Within.quiet {n g : BitVec 32} {l m : Nat} {s s' : Entities} (hm : Moves (fun _ => False) s s') (h : Within n g l m s) : Within n g l (m + 1) s' := by
  have key : ∀ k al, s.generations[n.toNat]? = some (al, g + BitVec.ofNat 32 k) →
      s'.generations[n.toNat]? = some (al, g + BitVec.ofNat 32 k) ∨ (al = false ∧ s'.generations[n.toNat]? = some (true, g + BitVec.ofNat 32 (k + 1))) := by
    intro k al h
    induction hm with
    | refl => exact Or.inl h
    | @spawn s' _ ih =>
      rcases spawn_slot s' n with hs | ⟨g', hs, hs'⟩ | ⟨hs, _⟩
      · rw [hs]; exact ih
      · rcases ih with h1 | ⟨_, h1⟩
        · rw [h1] at hs; cases hs
          refine Or.inr ⟨rfl, ?_⟩
          rw [hs', BitVec.ofNat_add, BitVec.add_assoc]; rfl
        · rw [h1] at hs; cases hs
      · rcases ih with h1 | ⟨_, h1⟩ <;> rw [h1] at hs <;> cases hs
    | despawn e b _ hp _ _ => exact hp.elim
  obtain ⟨k, al, h1, hl, h2⟩ := h
  rcases key k al h1 with h3 | ⟨rfl, h3⟩
  · exact ⟨k, al, h3, hl, by omega⟩
  · refine ⟨k + 1, true, h3, ?_⟩
    unfold halves at *
    simp only [Bool.false_eq_true, if_false, if_true] at *
    omega

theorem Within.despawn {n g : BitVec 32} {l m : Nat} {s s' : Entities} {e : EcsId} {b : Bool} (hd : s.despawn e = .ok (b, s')) (h : Within n g l m s) :
    Within n g l (m + 1) s' := by
  obtain ⟨k, al, h1, hl, h2⟩ := h
  rcases despawn_slot hd n with hs | ⟨_, hs, hs'⟩
  · exact ⟨k, al, by rw [hs, h1], hl, by omega⟩
  · rw [h1] at hs
    injection hs with hs
    injection hs with hs1 hs2
    subst hs1
    refine ⟨k, false, by rw [hs', hs2], ?_⟩
    unfold halves at *
    simp only [Bool.false_eq_true, if_false, if_true] at *
    omega

theorem Within.weaken {n g : BitVec 32} {l m : Nat} {s : Entities} (h : Within n g l m s) : Within n g l (m + 1) s := by
  obtain ⟨k, al, h1, hl, h2⟩ := h
  exact ⟨k, al, h1, hl, by omega⟩

theorem AW.despawn_within {n g : BitVec 32} {l m : Nat} (e : EcsId) (a : AWorld) (h : Within n g l m a.ents) : Within n g l (m + 1) (a.despawn e).2.ents := by
  unfold AWorld.despawn
  split <;> try exact h.weaken
  split
  · exact h.weaken
  · split <;> try exact h.weaken
    next h' => exact h.despawn h'

theorem ask_within {n g : BitVec 32} {l m : Nat} (q : Ask) (a : AWorld) (h : Within n g l m a.ents) : Within n g l (m + 1) (a.ask q).2.ents := by
  by_cases hq : ∃ e, q = .despawn e ∨ q = .call (.despawn e)
  · obtain ⟨e, rfl | rfl⟩ := hq
    · exact AW.despawn_within e a h
    · show Within n g l (m + 1) (a.step (.despawn e)).2.ents
      unfold AWorld.step; rw [AW.void_snd]
      exact AW.despawn_within e a h
  · refine h.quiet ((ask_moves q a).mono ?_)
    rintro e (he | he)
    · exact hq ⟨e, Or.inl (congrArg Prod.fst he)⟩
    · exact hq ⟨e, Or.inr (congrArg Prod.fst he)⟩

theorem FreeTalk.within {n g : BitVec 32} {l : Nat} {w w' : World} {tr : List (Ask × Except Fault Answer)} (hw : Safe w []) (h : FreeTalk w tr w') :
    ∀ {m : Nat}, Within n g l m w.entities → Within n g l (m + tr.length) w'.entities := by
  induction h with
  | done w => intro m h; exact h
  | @ok w w1 w2 q x rest h1 h2 h3 _ ih =>
    intro m h
    have ha := view_shows hw.inv.inv
    obtain ⟨_, s2⟩ := (sim_ask hw.inv.inv hw.inv.ready hw.inv.held ha h1).ok h2
    rw [← ha.ents] at h
    have hs := ask_within q w.view h
    rw [s2.ents] at hs
    have := ih ((ask_safe hw h1).1 _ _ h2 h3) hs
    rw [List.length_cons, Nat.add_comm rest.length, ← Nat.add_assoc]; exact this
  | @panic w w1 w2 q f rest h1 h2 h3 h4 h5 _ ih =>
    intro m h
    have ha := view_shows hw.inv.inv
    obtain ⟨_, s2⟩ := ((sim_ask hw.inv.inv hw.inv.ready hw.inv.held ha h1).error h2).resolve_left h3
    rw [← ha.ents] at h
    have hs := ask_within q w.view h
    rw [s2.ents] at hs
    have := ih ((ask_safe hw h1).2 _ _ h2 (fun hh => h3 (Or.inl hh)) h4 h5) hs
    rw [List.length_cons, Nat.add_comm rest.length, ← Nat.add_assoc]; exact this

/-! ## Ids in worlds -/

theorem alive_slot {w : World} {e : EcsId} : w.Alive e ↔ w.entities.generations[e.idx.toNat]? = some (true, e.gen) := by
  unfold Alive World.isAlive Entities.isAlive EcsId.uindex
  cases w.entities.generations[e.idx.toNat]? with
  | none => simp
  | some p =>
    obtain ⟨al, g⟩ := p
    simp only [Except.ok.injEq, Bool.and_eq_true, beq_iff_eq, Option.some.injEq, Prod.mk.injEq]
    exact and_congr Iff.rfl eq_comm

/-- The slot an id is taken from. -/
theorem spawned_slot {s : Entities} {e : EcsId} (h : s.spawn.1 = .ok e) :
    s.spawn.2.generations[e.idx.toNat]? = some (true, e.gen) ∧
    (s.generations[e.idx.toNat]? = none ∨ s.generations[e.idx.toNat]? = some (false, e.gen - 1)) := by
  unfold Entities.spawn at h ⊢
  cases hd : s.despawned with
  | nil =>
    simp only [hd] at h ⊢
    split at h
    · cases h
    · next hlt =>
      rw [if_neg hlt]
      cases h
      have : (BitVec.ofNat 32 s.generations.length).toNat = s.generations.length := by
        rw [BitVec.toNat_ofNat]; apply Nat.mod_eq_of_lt; omega
      simp only [EcsId.new, this]
      exact ⟨by rw [List.getElem?_append_right (Nat.le_refl _)]; simp, Or.inl (List.getElem?_eq_none (Nat.le_refl _))⟩
  | cons i rest =>
    simp only [hd] at h ⊢
    cases hg : s.generations[i]? with
    | none => simp only [hg] at h; cases h
    | some p =>
      obtain ⟨al, g⟩ := p
      simp only [hg] at h ⊢
      cases al with
      | true => simp at h
      | false =>
        simp only [Bool.false_eq_true, if_false] at h ⊢
        split at h
        · cases h
        · next hlt =>
          rw [if_neg hlt]
          cases h
          have : (BitVec.ofNat 32 i).toNat = i := by
            rw [BitVec.toNat_ofNat]; apply Nat.mod_eq_of_lt; omega
          have hl := (List.getElem?_eq_some_iff.1 hg).1
          simp only [EcsId.new, this]
          refine ⟨List.getElem?_set_self hl, Or.inr ?_⟩
          rw [hg, BitVec.add_sub_cancel]

/-- Handing out an id: it comes from the allocator. -/
theorem HandsOut.spawn {w w' : World} {q : Ask} {e : EcsId} (hw : Safe w []) (hq : q.Ok w) (h : HandsOut w q e w') :
    w.entities.spawn.1 = .ok e ∧ Moves (fun _ => False) w.entities.spawn.2 w'.entities := by
  obtain ⟨h, hk⟩ := h
  have ha := view_shows hw.inv.inv
  obtain ⟨s1, s2⟩ := (sim_ask hw.inv.inv hw.inv.ready hw.inv.held ha hq).ok h
  have he := ha.ents
  rcases hk with ⟨kind, acts, rfl⟩ | ⟨t, rfl, ht⟩
  · obtain ⟨m1, m2⟩ := AW.spawn_moves kind acts w.view (fun _ => False)
    have k1 : Except.map Answer.id (w.view.spawn kind acts).1 = .ok (.id e) := s1
    have k2 : (w.view.spawn kind acts).2.ents = w'.entities := s2.ents
    rw [k2, he] at m1
    refine ⟨?_, m1⟩
    rw [← he]
    cases hr : (w.view.spawn kind acts).1 with
    | error f => rw [hr] at k1; cases k1
    | ok e' => rw [hr] at k1; cases k1; exact m2 _ hr
  · have k1 : Except.map Answer.id (w.view.register t).1 = .ok (.id e) := s1
    have k2 : (w.view.register t).2.ents = w'.entities := s2.ents
    rw [← ha.types] at ht
    unfold AWorld.register AWorld.spawnId at k1 k2
    simp only [ht, he] at k1 k2
    cases hs : w.entities.spawn with
    | mk r s =>
      simp only [hs] at k1 k2
      cases r with
      | error f => simp only at k1; cases k1
      | ok e' => simp only at k1 k2; cases k1; subst k2; exact ⟨rfl, .refl _⟩

theorem minus_one {g : BitVec 32} {k : Nat} (h : g + BitVec.ofNat 32 k = g - 1) : 2 ^ 32 - 1 ≤ k := by
  have h2 : (BitVec.ofNat 32 k) = -1 := by
    have := congrArg (fun x => x - g) h
    simp only [BitVec.add_comm g, BitVec.add_sub_cancel] at this
    rw [this]
    apply BitVec.eq_of_toNat_eq
    simp only [BitVec.toNat_sub, BitVec.toNat_neg, BitVec.toNat_ofNat]
    have := g.isLt
    omega
  have h3 := congrArg BitVec.toNat h2
  rw [BitVec.toNat_ofNat] at h3
  have h4 : (-1 : BitVec 32).toNat = 2 ^ 32 - 1 := by decide +kernel
  rw [h4] at h3
  have := Nat.mod_le k (2 ^ 32)
  omega

theorem gen_offset (g g' : BitVec 32) : g' + BitVec.ofNat 32 (g - g').toNat = g := by
  rw [BitVec.ofNat_toNat, BitVec.setWidth_eq, BitVec.add_comm, BitVec.sub_add_cancel]

/-- Since the slot `n` was free with generation `g`. -/
def Rested (n g : BitVec 32) (D : EcsId → Prop) (s : Entities) : Prop := s.generations[n.toNat]? = some (false, g) ∨ Aged n (g + 1) D s

theorem Rested.moves {n g : BitVec 32} {D P : EcsId → Prop} {s s' : Entities} (hm : Moves P s s') (h : Rested n g D s) : Rested n g (fun e => D e ∨ P e) s' := by
  rcases h with h | h
  · induction hm with
    | refl => exact Or.inl h
    | @spawn s' _ ih =>
      rcases ih with ih | ih
      · rcases spawn_slot s' n with hs | ⟨g', hs, hs'⟩ | ⟨hs, _⟩
        · exact Or.inl (by rw [hs, ih])
        · rw [ih] at hs; cases hs
          exact Or.inr ⟨0, true, by rw [hs']; simp, fun j hj => absurd hj (Nat.not_lt_zero j), fun hh => by cases hh⟩
        · rw [ih] at hs; cases hs
      · exact Or.inr ih.spawn
    | despawn e b _ hp hd ih =>
      rcases ih with ih | ih
      · rcases despawn_slot hd n with hs | ⟨_, hs, _⟩
        · exact Or.inl (by rw [hs, ih])
        · rw [ih] at hs; cases hs
      · refine Or.inr ((ih.moves (P := P) (.despawn e b (.refl _) hp hd)).imp ?_)
        rintro x ((hx | hx) | hx)
        · exact Or.inl hx
        · exact Or.inr hx
        · exact Or.inr hx
  · exact Or.inr (h.moves hm)

/-- The slot of an id that was despawned is free. -/
theorem freed_slot {w w1 : World} (hw : Safe w []) {e : EcsId} (hd : Ask.exec (.despawn e) w = .ok (.bool true) w1) :
    w1.entities.generations[e.idx.toNat]? = some (false, e.gen) := by
  have ha := view_shows hw.inv.inv
  obtain ⟨s1, s2⟩ := (sim_ask hw.inv.inv hw.inv.ready hw.inv.held ha (q := .despawn e) trivial).ok hd
  have k1 : Except.map Answer.bool (w.view.despawn e).1 = .ok (.bool true) := s1
  have k2 : (w.view.despawn e).2.ents = w1.entities := s2.ents
  rw [← k2]
  unfold AWorld.despawn at k1 ⊢
  cases hal : w.view.isAlive e with
  | error f => simp only [hal] at k1; cases k1
  | ok b =>
    cases b with
    | false => simp only [hal] at k1; cases k1
    | true =>
      simp only [hal] at k1 ⊢
      split at k1
      · cases k1
      · next hu =>
        rw [if_neg hu]
        split at k1
        · cases k1
        · cases k1
        · next hs =>
          simp only [*]
          have hal' : w.view.ents.isAlive e = .ok true := hal
          have hl := Entities.isAlive_iff.1 hal'
          have hl' : w.view.ents.generations[e.idx.toNat]? = some (true, e.gen) := hl
          rcases despawn_slot hs e.idx with h1 | ⟨_, _, h1⟩
          · exfalso
            unfold Entities.despawn at hs
            rw [hal'] at hs
            simp only [show w.view.ents.generations[e.uindex]? = some (true, e.gen) from hl] at hs
            cases hs
            rw [hl'] at h1
            have hlt := (List.getElem?_eq_some_iff.1 hl').1
            simp only at h1
            rw [show e.uindex = e.idx.toNat from rfl, List.getElem?_set_self hlt] at h1
            cases h1
          · exact h1

/-! ## Types -/

namespace AW

theorem addDyn_types (e c : EcsId) (src : Bytes) (a : AWorld) : (a.addDyn e c src).2.types = a.types := by
  unfold AWorld.addDyn AWorld.addLocks AWorld.use
  split <;> try rfl
  split <;> try rfl
  split <;> rfl

theorem removeDyn_types (e c : EcsId) (a : AWorld) : (a.removeDyn e c).2.types = a.types := by
  unfold AWorld.removeDyn
  split <;> try rfl
  split <;> try rfl
  split <;> rfl

theorem addZst_types (e c : EcsId) (a : AWorld) : (a.addZst e c).2.types = a.types := by
  unfold AWorld.addZst
  split <;> try rfl
  split <;> try rfl
  split <;> try rfl
  split
  · rfl
  · exact addDyn_types e c [] a

theorem write_types (e c : EcsId) (bs : Bytes) (a : AWorld) : (a.write e c bs).2.types = a.types := by
  unfold AWorld.write
  split <;> try rfl
  split <;> try rfl
  split <;> rfl

theorem lockAll_types (b : Bool) (fs : List Fetch) (p : Bool) (a : AWorld) : (a.lockAll b fs p).2.types = a.types := by
  unfold AWorld.lockAll AWorld.poison
  split
  · rfl
  · simp only; split <;> rfl

theorem query_types (ps : List Param) (p : Bool) (a : AWorld) : (a.query ps p).2.types = a.types := by
  unfold AWorld.query
  split
  · rfl
  · exact lockAll_types ..

theorem give_types (c : EcsId) (v : Bytes) (b : AWorld.Draft) (a : AWorld) : (a.give c v b).2.types = a.types := by
  unfold AWorld.give
  split <;> try rfl
  split <;> rfl

/-- Types keep their ids. -/
def Keeps (a b : AWorld) : Prop := ∀ t id, a.types t = some id → b.types t = some id

theorem Keeps.rfl {a : AWorld} : Keeps a a := fun _ _ h => h
theorem Keeps.trans {a b c : AWorld} (h : Keeps a b) (h' : Keeps b c) : Keeps a c := fun t id hh => h' t id (h t id hh)
theorem Keeps.of_eq {a b : AWorld} (h : b.types = a.types) : Keeps a b := fun _ _ hh => by rw [h]; exact hh

theorem register_keeps (t : Ty) (a : AWorld) : Keeps a (a.register t).2 := by
  unfold AWorld.register
  cases ht : a.types t with
  | some id => exact .rfl
  | none =>
    simp only
    unfold AWorld.spawnId
    cases hs : a.ents.spawn with
    | mk r s =>
      cases r with
      | error f => exact .rfl
      | ok e =>
        intro t' id h
        simp only
        split
        · next h' => subst h'; rw [ht] at h; cases h
        · exact h

theorem addComponent_keeps (e : EcsId) (t : Ty) (v : Bytes) (a : AWorld) : Keeps a (a.addComponent e t v).2 := by
  unfold AWorld.addComponent
  split <;> try exact .rfl
  have h := register_keeps t a
  split
  · next h' => rw [h'] at h; exact h
  · next h' => rw [h'] at h; exact h.trans (.of_eq (addDyn_types ..))

theorem removeComponent_keeps (e : EcsId) (t : Ty) (a : AWorld) : Keeps a (a.removeComponent e t).2 := by
  unfold AWorld.removeComponent
  split <;> try exact .rfl
  have h := register_keeps t a
  split
  · next h' => rw [h'] at h; exact h
  · next h' => rw [h'] at h; exact h.trans (.of_eq (removeDyn_types ..))

theorem act_keeps (b : AWorld.Draft) (x : BAct) (a : AWorld) : Keeps a (a.act b x).2 := by
  unfold AWorld.act
  cases x with
  | «with» t v =>
    simp only
    have h := register_keeps t a
    split
    · next h' => rw [h'] at h; exact h
    · next h' => rw [h'] at h; exact h.trans (.of_eq (give_types ..))
  | withDynamicWithData c v => exact .of_eq (give_types ..)
  | withDynamic c =>
    simp only
    split <;> try exact .rfl
    split <;> try exact .rfl
    split <;> exact .rfl
  | build => exact .rfl

theorem acts_keeps (xs : List BAct) : ∀ (b : AWorld.Draft) (a : AWorld), Keeps a (AWorld.acts b xs a).2 := by
  induction xs with
  | nil => intro b a; exact .rfl
  | cons x xs ih =>
    intro b a
    unfold AWorld.acts
    have h := act_keeps b x a
    split
    · next h' => rw [h'] at h; exact h
    · next h' => rw [h'] at h; exact h.trans (ih _ _)

theorem spawn_keeps (kind : SpawnKind) (xs : List BAct) (a : AWorld) : Keeps a (a.spawn kind xs).2 := by
  unfold AWorld.spawn AWorld.spawnId
  cases hs : a.ents.spawn with
  | mk r s =>
    cases r with
    | error f => exact .rfl
    | ok e =>
      simp only
      have h := acts_keeps xs ⟨e, AWorld.metaOf kind, []⟩ { a with ents := s }
      split
      · next h' => rw [h'] at h; exact h
      · next h' => rw [h'] at h; exact h

theorem despawn_types (e : EcsId) (a : AWorld) : (a.despawn e).2.types = a.types := by
  unfold AWorld.despawn
  split <;> try rfl
  split
  · rfl
  · split <;> rfl

end AW

theorem ask_keeps (q : Ask) (a : AWorld) : AW.Keeps a (a.ask q).2 := by
  cases q with
  | spawn kind acts => exact AW.spawn_keeps kind acts a
  | despawn e => exact .of_eq (AW.despawn_types e a)
  | register t => exact AW.register_keeps t a
  | isAlive e => exact .rfl
  | has t e => exact .rfl
  | look e c n => exact .rfl
  | call c =>
    show AW.Keeps a (a.step c).2
    cases c with
    | spawn kind acts => unfold AWorld.step; rw [AW.void_snd]; exact AW.spawn_keeps kind acts a
    | addComponent e t v => exact AW.addComponent_keeps e t v a
    | removeComponent e t => exact AW.removeComponent_keeps e t a
    | addDynamic e c => exact .of_eq (AW.addZst_types ..)
    | addDynamicWithData e c src => exact .of_eq (AW.addDyn_types ..)
    | removeDynamic e c => exact .of_eq (AW.removeDyn_types ..)
    | despawn e => unfold AWorld.step; rw [AW.void_snd]; exact .of_eq (AW.despawn_types e a)
    | register t => unfold AWorld.step; rw [AW.void_snd]; exact AW.register_keeps t a
    | write e c bs => exact .of_eq (AW.write_types ..)
    | query ps p => exact .of_eq (AW.query_types ..)
    | queryDynamic fs p => exact .of_eq (AW.lockAll_types ..)

theorem FreeTalk.keeps {w w' : World} {tr : List (Ask × Except Fault Answer)} (hw : Safe w []) (h : FreeTalk w tr w') {t : Ty} {id : EcsId}
    (ht : w.typeMap t = some id) : w'.typeMap t = some id := by
  induction h with
  | done w => exact ht
  | @ok w w1 w2 q x rest h1 h2 h3 _ ih =>
    have ha := view_shows hw.inv.inv
    obtain ⟨_, s2⟩ := (sim_ask hw.inv.inv hw.inv.ready hw.inv.held ha h1).ok h2
    refine ih ((ask_safe hw h1).1 _ _ h2 h3) ?_
    rw [← s2.types]
    exact ask_keeps q w.view t id (by rw [ha.types]; exact ht)
  | @panic w w1 w2 q f rest h1 h2 h3 h4 h5 _ ih =>
    have ha := view_shows hw.inv.inv
    obtain ⟨_, s2⟩ := ((sim_ask hw.inv.inv hw.inv.ready hw.inv.held ha h1).error h2).resolve_left h3
    refine ih ((ask_safe hw h1).2 _ _ h2 (fun hh => h3 (Or.inl hh)) h4 h5) ?_
    rw [← s2.types]
    exact ask_keeps q w.view t id (by rw [ha.types]; exact ht)

theorem FreeTalk.append {u v w : World} {xs ys : List (Ask × Except Fault Answer)} (h : FreeTalk u xs v) (h' : FreeTalk v ys w) : FreeTalk u (xs ++ ys) w := by
  induction h with
  | done => exact h'
  | ok h1 h2 h3 _ ih => exact .ok h1 h2 h3 (ih h')
  | panic h1 h2 h3 h4 h5 _ ih => exact .panic h1 h2 h3 h4 h5 (ih h')

theorem FreeTalk.split {u w : World} {xs : List (Ask × Except Fault Answer)} : ∀ {ys : List (Ask × Except Fault Answer)}, FreeTalk u (xs ++ ys) w →
    ∃ v, FreeTalk u xs v ∧ FreeTalk v ys w := by
  induction xs generalizing u with
  | nil => intro ys h; exact ⟨u, .done u, h⟩
  | cons x xs ih =>
    intro ys h
    cases h with
    | ok h1 h2 h3 h4 =>
      obtain ⟨v, k1, k2⟩ := ih h4
      exact ⟨v, .ok h1 h2 h3 k1, k2⟩
    | panic h1 h2 h3 h4 h5 h6 =>
      obtain ⟨v, k1, k2⟩ := ih h6
      exact ⟨v, .panic h1 h2 h3 h4 h5 k1, k2⟩

theorem LongTalk.free {w w' : World} {tr : List (Ask × Except Fault Answer)} (hw : Endless w) (h : LongTalk w tr w') : FreeTalk w tr w' := by
  induction h with
  | done w => exact .done w
  | ok h1 h2 h3 _ ih =>
    have he := (ask_endless hw h1 h2).1 _ _ h3
    exact .ok h1 h3 he.inv.ready (ih he)
  | panic h1 h2 h3 h4 h5 _ ih =>
    have he := (ask_endless hw h1 h2).2 _ _ h3 (fun hh => h4 (Or.inl hh)) h5
    exact .panic h1 h3 h4 h5 he.inv.ready (ih he)

end World
end Ellecs
