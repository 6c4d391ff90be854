import Verif.Proofs.Entities
import Verif.Proofs.System
import Verif.Spec.Program
import Verif.Proofs.Laws
/-!
# Map worlds of well-behaved programs

`Tidy p k d a`: `a` has at most `k` slots, at most `d` despawns have happened, no lock is poisoned, all entities are built
except `p`.  What the calls do to such worlds.
-/
namespace Ellecs

/-- An allocator with at most `k` slots after at most `d` despawns. -/
structure Ids (k d : Nat) (s : Entities) : Prop where
  slots : s.generations.length ≤ k
  gens : ∀ p ∈ s.generations, p.2.toNat + (if p.1 then 0 else 1) ≤ d
  free : ∀ i ∈ s.despawned, ∃ g, s.generations[i]? = some (false, g)
  nodup : s.despawned.Nodup

theorem Ids.mono {k k' d d' : Nat} {s : Entities} (h : Ids k d s) (hk : k ≤ k') (hd : d ≤ d') : Ids k' d' s :=
  ⟨Nat.le_trans h.slots hk, fun p hp => Nat.le_trans (h.gens p hp) hd, h.free, h.nodup⟩

theorem isAlive_true {s : Entities} {e : EcsId} : s.isAlive e = .ok true ↔ s.generations[e.uindex]? = some (true, e.gen) := by
  unfold Entities.isAlive
  cases h : s.generations[e.uindex]? with
  | none => simp
  | some p =>
    obtain ⟨al, g⟩ := p
    cases al
    · simp
    · simp only [Bool.true_and, Except.ok.injEq, beq_iff_eq, Option.some.injEq, Prod.mk.injEq, true_and]
      exact eq_comm

/-- The entity was despawned. -/
def Gone (s : Entities) (e : EcsId) : Prop := ∃ b g, s.generations[e.uindex]? = some (b, g) ∧ e.gen.toNat + (if b then 1 else 0) ≤ g.toNat

theorem Gone.alive {s : Entities} {e : EcsId} (h : Gone s e) : s.isAlive e = .ok false := by
  obtain ⟨b, g, h1, h2⟩ := h
  unfold Entities.isAlive
  rw [h1]
  cases b
  · rfl
  · have : e.gen ≠ g := by rintro rfl; simp at h2; omega
    simp [this]

theorem Ids.spawn {k d : Nat} {s : Entities} (h : Ids k d s) (hk : k < 2 ^ 32) (hd : d < 2 ^ 32) :
    ∃ e s', s.spawn = (.ok e, s') ∧ Ids (k + 1) d s' ∧ s.isAlive e ≠ .ok true ∧
      (∀ x, s'.isAlive x = .ok true ↔ x = e ∨ s.isAlive x = .ok true) ∧ (∀ x, Gone s x → Gone s' x) := by
  have hslots := h.slots
  have eqid : ∀ (x : EcsId) (i g : BitVec 32), x = EcsId.new i g ↔ x.idx = i ∧ x.gen = g := by
    intro x i g
    cases x
    simp [EcsId.new]
    exact And.comm
  unfold Entities.spawn
  cases hdes : s.despawned with
  | nil =>
    have hlt : ¬ s.generations.length > 2 ^ 32 - 1 := by omega
    refine ⟨_, _, by rw [if_neg hlt], ⟨?_, ?_, by simp, by simp⟩, ?_, ?_, ?_⟩
    · rw [List.length_append]; exact Nat.add_le_add h.slots (Nat.le_refl 1)
    · intro p hp
      rcases List.mem_append.1 hp with hp | hp
      · exact h.gens p hp
      · rw [List.mem_singleton.1 hp]; exact Nat.zero_le _
    · rw [Ne, isAlive_true]
      intro hc
      have : (BitVec.ofNat 32 s.generations.length).toNat = s.generations.length := Alloc.ofNat_toNat_lt (by omega)
      simp only [EcsId.uindex, this] at hc
      simp at hc
    · intro x
      rw [isAlive_true, isAlive_true, eqid]
      have hx : x.idx = BitVec.ofNat 32 s.generations.length ↔ x.uindex = s.generations.length := by
        rw [← BitVec.toNat_inj, Alloc.ofNat_toNat_lt (by omega)]
        rfl
      rw [hx]
      by_cases h1 : x.uindex < s.generations.length
      · rw [List.getElem?_append_left h1]
        constructor
        · exact .inr
        · rintro (h2 | h2)
          · omega
          · exact h2
      · rw [List.getElem?_append_right (by omega)]
        have h0 : s.generations[x.uindex]? = none := List.getElem?_eq_none (by omega)
        rw [h0]
        by_cases h2 : x.uindex = s.generations.length
        · rw [h2]
          simp
          exact eq_comm
        · have : x.uindex - s.generations.length ≠ 0 := by omega
          simp [this, h2]
    · rintro x ⟨b, g, h1, h2⟩
      exact ⟨b, g, by rw [List.getElem?_append_left (List.getElem?_eq_some_iff.1 h1).1]; exact h1, h2⟩
  | cons i rest =>
    obtain ⟨g, hg⟩ := h.free i (by rw [hdes]; exact List.mem_cons_self)
    have hi : i < s.generations.length := (List.getElem?_eq_some_iff.1 hg).1
    have hgd : g.toNat + 1 ≤ d := h.gens (false, g) (List.mem_of_getElem? hg)
    have hlt : ¬ i > 2 ^ 32 - 1 := by omega
    have hnd := h.nodup
    rw [hdes] at hnd
    have hii : (BitVec.ofNat 32 i).toNat = i := Alloc.ofNat_toNat_lt (by omega)
    have hg1 : (g + 1).toNat = g.toNat + 1 := by
      rw [BitVec.toNat_add]
      exact Nat.mod_eq_of_lt (by show g.toNat + 1 < 2 ^ 32; omega)
    simp only [hg]
    refine ⟨_, _, by rw [if_neg hlt]; rfl, ⟨?_, ?_, ?_, ?_⟩, ?_, ?_, ?_⟩
    · rw [List.length_set]; omega
    · intro p hp
      rcases List.mem_or_eq_of_mem_set hp with hp | rfl
      · exact h.gens p hp
      · show (g + 1).toNat + 0 ≤ d
        rw [hg1]; exact hgd
    · intro j hj
      obtain ⟨gj, hgj⟩ := h.free j (by rw [hdes]; exact List.mem_cons_of_mem _ hj)
      refine ⟨gj, ?_⟩
      have : i ≠ j := fun hc => (List.nodup_cons.1 hnd).1 (hc ▸ hj)
      rw [List.getElem?_set_ne this]
      exact hgj
    · exact (List.nodup_cons.1 hnd).2
    · rw [Ne, isAlive_true]
      simp only [EcsId.uindex, hii, hg]
      simp
    · intro x
      rw [isAlive_true, isAlive_true, eqid]
      have hx : x.idx = BitVec.ofNat 32 i ↔ x.uindex = i := by
        rw [← BitVec.toNat_inj, hii]
        rfl
      rw [hx]
      by_cases h2 : x.uindex = i
      · rw [h2, List.getElem?_set_self hi, hg]
        simp
        exact eq_comm
      · rw [List.getElem?_set_ne (fun hc => h2 hc.symm)]
        simp [h2]
    · rintro x ⟨b, g', h1, h2⟩
      by_cases h3 : x.uindex = i
      · refine ⟨true, g + 1, by rw [h3]; exact List.getElem?_set_self hi, ?_⟩
        rw [h3, hg] at h1
        cases h1
        rw [hg1]
        simp at h2 ⊢
        exact h2
      · exact ⟨b, g', by rw [List.getElem?_set_ne (fun hc => h3 hc.symm)]; exact h1, h2⟩

theorem Ids.despawn {k d : Nat} {s : Entities} (h : Ids k d s) {e : EcsId} (he : s.isAlive e = .ok true) :
    ∃ s', s.despawn e = .ok (true, s') ∧ Ids k (d + 1) s' ∧ (∀ x, s'.isAlive x = .ok true ↔ x ≠ e ∧ s.isAlive x = .ok true) ∧
      Gone s' e ∧ (∀ x, Gone s x → Gone s' x) := by
  have hg := isAlive_true.1 he
  have hi : e.uindex < s.generations.length := (List.getElem?_eq_some_iff.1 hg).1
  unfold Entities.despawn
  rw [he]
  simp only [hg]
  refine ⟨_, rfl, ⟨?_, ?_, ?_, ?_⟩, ?_, ⟨false, e.gen, List.getElem?_set_self hi, Nat.le_refl _⟩, ?_⟩
  · rw [List.length_set]; exact h.slots
  · intro p hp
    rcases List.mem_or_eq_of_mem_set hp with hp | rfl
    · exact Nat.le_succ_of_le (h.gens p hp)
    · have := h.gens _ (List.mem_of_getElem? hg)
      exact Nat.succ_le_succ this
  · intro j hj
    rcases List.mem_cons.1 hj with rfl | hj
    · exact ⟨_, List.getElem?_set_self hi⟩
    · obtain ⟨gj, hgj⟩ := h.free j hj
      have : e.uindex ≠ j := by intro hc; rw [hc, hgj] at hg; simp at hg
      exact ⟨gj, by rw [List.getElem?_set_ne this]; exact hgj⟩
  · refine List.nodup_cons.2 ⟨?_, h.nodup⟩
    intro hc
    obtain ⟨gj, hgj⟩ := h.free _ hc
    rw [hgj] at hg
    simp at hg
  · intro x
    rw [isAlive_true, isAlive_true]
    by_cases h2 : e.uindex = x.uindex
    · rw [← h2, List.getElem?_set_self hi, hg]
      constructor
      · intro hc; simp at hc
      · rintro ⟨h3, h4⟩
        have h5 : e.gen = x.gen := by simpa using h4
        refine absurd ?_ h3
        have h6 : x.idx = e.idx := BitVec.toNat_inj.1 h2.symm
        cases x; cases e
        simp only [EcsId.mk.injEq]
        exact ⟨h5.symm, h6⟩
    · rw [List.getElem?_set_ne h2]
      constructor
      · exact fun h3 => ⟨fun hc => h2 (by rw [hc]), h3⟩
      · exact And.right
  · rintro x ⟨b, g, h1, h2⟩
    by_cases h3 : e.uindex = x.uindex
    · rw [← h3, hg] at h1
      cases h1
      refine ⟨false, _, by rw [← h3]; exact List.getElem?_set_self hi, ?_⟩
      simp at h2 ⊢
      omega
    · exact ⟨b, g, by rw [List.getElem?_set_ne h3]; exact h1, h2⟩

theorem Ids.noFull {k d : Nat} {s : Entities} (h : Ids k d s) (hd : d < 2 ^ 32) : ∀ p ∈ s.generations, p.1 = false → p.2 ≠ BitVec.allOnes 32 := by
  intro p hp h1 h2
  have := h.gens p hp
  rw [h1, h2] at this
  have h3 : (BitVec.allOnes 32).toNat = 2 ^ 32 - 1 := by decide
  rw [h3] at this
  simp at this
  omega

/-- The types that are registered after a registration. -/
def learn (L : List Ty) (t : Ty) : List Ty := if t ∈ L then L else t :: L

theorem mem_learn {L : List Ty} {t t' : Ty} : t' ∈ learn L t ↔ t' = t ∨ t' ∈ L := by
  unfold learn
  split
  · rename_i h
    constructor
    · exact .inr
    · rintro (rfl | h')
      · exact h
      · exact h'
  · exact List.mem_cons

theorem learn_nodup {L : List Ty} (h : L.Nodup) (t : Ty) : (learn L t).Nodup := by
  unfold learn
  split
  · exact h
  · rename_i hn; exact List.nodup_cons.2 ⟨hn, h⟩

theorem learn_length (L : List Ty) (t : Ty) : L.length ≤ (learn L t).length := by
  unfold learn
  split
  · exact Nat.le_refl _
  · rw [List.length_cons]; exact Nat.le_succ _

/-- The types that are registered after a call on a builder. -/
def learnAct (L : List Ty) : BAct → List Ty
  | .with t _ => learn L t
  | _ => L

theorem learnAct_length (L : List Ty) (x : BAct) : L.length ≤ (learnAct L x).length := by
  cases x <;> first | exact learn_length L _ | exact Nat.le_refl _

theorem learnActs_length (xs : List BAct) : ∀ L : List Ty, L.length ≤ (xs.foldl learnAct L).length := by
  induction xs with
  | nil => exact fun L => Nat.le_refl _
  | cons x xs ih => exact fun L => Nat.le_trans (learnAct_length L x) (ih _)

/-- All entities are built except `p`; all components in use can be locked; the types in `L` are registered; `k` slots are not
for types. -/
structure Tidy (p : Option EcsId) (L : List Ty) (k d : Nat) (a : AWorld) : Prop where
  ids : Ids (k + L.length) d a.ents
  pend : ∀ e, p = some e → a.isAlive e = .ok true
  built : ∀ x, a.info x ≠ none ↔ a.isAlive x = .ok true ∧ p ≠ some x
  types : ∀ t c, a.types t = some c → a.info c = some (ComponentMeta.fromGeneric t)
  inj : ∀ t t' c, a.types t = some c → a.types t' = some c → t = t'
  cells : ∀ e c, a.cell e c ≠ none → a.info e ≠ none ∧ a.used c = true
  used : ∀ c, a.used c = true → a.info c ≠ none ∧ a.lock c = some false
  clean : ∀ c, a.lock c ≠ some true
  regs : L.Nodup ∧ ∀ t, a.types t ≠ none ↔ t ∈ L

/-- Only registrations happened. -/
structure Grows (a a' : AWorld) : Prop where
  cell : a'.cell = a.cell
  used : a'.used = a.used
  lock : a'.lock = a.lock
  types : ∀ t c, a.types t = some c → a'.types t = some c
  info : ∀ x m, a.info x = some m → a'.info x = some m
  fresh : ∀ t c, a'.types t = some c → a.types t = some c ∨ (a.info c = none ∧ a.isAlive c ≠ .ok true)
  alive : ∀ x, a.isAlive x = .ok true → a'.isAlive x = .ok true
  built : ∀ x, a'.info x ≠ none → a.info x ≠ none ∨ ∃ t, a'.types t = some x
  gone : ∀ x, Gone a.ents x → Gone a'.ents x

namespace Grows

theorem refl (a : AWorld) : Grows a a := ⟨rfl, rfl, rfl, fun _ _ h => h, fun _ _ h => h, fun _ _ h => .inl h, fun _ h => h, fun _ h => .inl h, fun _ h => h⟩

theorem trans {a b c : AWorld} (h : Grows a b) (h' : Grows b c) : Grows a c :=
  ⟨h'.cell.trans h.cell, h'.used.trans h.used, h'.lock.trans h.lock, fun t x g => h'.types t x (h.types t x g), fun x m g => h'.info x m (h.info x m g),
    (fun t x g => by
      rcases h'.fresh t x g with g | ⟨g1, g2⟩
      · exact h.fresh t x g
      · refine .inr ⟨?_, fun g => g2 (h.alive x g)⟩
        cases hx : a.info x with
        | none => rfl
        | some m => rw [h.info x m hx] at g1; cases g1),
    fun x g => h'.alive x (h.alive x g),
    (fun x g => by
      rcases h'.built x g with g | g
      · rcases h.built x g with g | ⟨t, g⟩
        · exact .inl g
        · exact .inr ⟨t, h'.types t x g⟩
      · exact .inr g),
    fun x g => h'.gone x (h.gone x g)⟩

end Grows

namespace Tidy

theorem mono {p : Option EcsId} {L : List Ty} {k k' d d' : Nat} {a : AWorld} (h : Tidy p L k d a) (hk : k ≤ k') (hd : d ≤ d') : Tidy p L k' d' a :=
  ⟨h.ids.mono (Nat.add_le_add_right hk _) hd, h.pend, h.built, h.types, h.inj, h.cells, h.used, h.clean, h.regs⟩

theorem new : Tidy none [] 0 0 AWorld.new where
  regs := ⟨List.nodup_nil, fun t => ⟨fun h => absurd rfl h, fun h => nomatch h⟩⟩
  ids := ⟨Nat.le_refl 0, (fun p hp => by cases hp), (fun i hi => by cases hi), List.nodup_nil⟩
  pend := fun e h => by cases h
  built := fun x => by
    constructor
    · intro h; exact absurd rfl h
    · rintro ⟨h, _⟩; cases h
  types := fun t c h => by cases h
  inj := fun t t' c h => by cases h
  cells := fun e c h => absurd rfl h
  used := fun c h => by cases h
  clean := fun c h => by cases h

theorem alive {p : Option EcsId} {L : List Ty} {k d : Nat} {a : AWorld} (h : Tidy p L k d a) {x : EcsId} (hx : a.info x ≠ none) : a.isAlive x = .ok true := ((h.built x).1 hx).1

theorem spawnId {L : List Ty} {k d : Nat} {a : AWorld} (h : Tidy none L k d a) (hk : k + 1 + L.length ≤ 2 ^ 32) (hd : d < 2 ^ 32) :
    ∃ e a', a.spawnId = (.ok e, a') ∧ Tidy (some e) L (k + 1) d a' ∧ Grows a a' ∧ a'.types = a.types ∧ a.info e = none ∧ a'.info e = none ∧
      a.isAlive e ≠ .ok true := by
  obtain ⟨e, s', h1, h2, h3, h4, hgone⟩ := h.ids.spawn (by omega) hd
  have hnone : a.info e = none := by
    cases hi : a.info e with
    | none => rfl
    | some m => exact absurd (h.alive (by rw [hi]; simp)) h3
  refine ⟨e, { a with ents := s' }, by unfold AWorld.spawnId; rw [h1], ?_, ?_, rfl, hnone, hnone, h3⟩
  · refine ⟨(by rw [show k + 1 + L.length = k + L.length + 1 by omega]; exact h2), ?_, ?_, h.types, h.inj, h.cells, h.used, h.clean, h.regs⟩
    · intro x hx
      cases hx
      exact (h4 e).2 (.inl rfl)
    · intro x
      show a.info x ≠ none ↔ s'.isAlive x = .ok true ∧ some e ≠ some x
      rw [h.built x, h4 x]
      constructor
      · rintro ⟨g, _⟩
        refine ⟨.inr g, ?_⟩
        intro hc
        cases hc
        exact h3 g
      · rintro ⟨g | g, g'⟩
        · exact absurd (by rw [g]) g'
        · exact ⟨g, by simp⟩
  · exact ⟨rfl, rfl, rfl, fun _ _ g => g, fun _ _ g => g, fun _ _ g => .inl g, fun x g => (h4 x).2 (.inr g), fun _ g => .inl g, hgone⟩

theorem register {p : Option EcsId} {L : List Ty} {k d : Nat} {a : AWorld} (h : Tidy p L k d a) {t : Ty} (hk : k + (learn L t).length ≤ 2 ^ 32) (hd : d < 2 ^ 32) :
    ∃ c a', a.register t = (.ok c, a') ∧ Tidy p (learn L t) k d a' ∧ Grows a a' ∧ a'.types t = some c ∧ a'.info c = some (ComponentMeta.fromGeneric t) ∧
      (∀ t', t' ≠ t → a'.types t' = a.types t') ∧ (∀ x, a.info x = none → x ≠ c → a'.info x = none) ∧ p ≠ some c ∧
      (a.types t = none → a.isAlive c ≠ .ok true) := by
  cases ht : a.types t with
  | some c =>
    refine ⟨c, a, by unfold AWorld.register; rw [ht], (by rw [show learn L t = L from if_pos ((h.regs.2 t).1 (by rw [ht]; simp))]; exact h), Grows.refl a, ht, h.types t c ht, fun _ _ => rfl, fun _ g _ => g,
      ((h.built c).1 (by rw [h.types t c ht]; simp)).2, (fun hc => by cases hc)⟩
  | none =>
    have hL : learn L t = t :: L := if_neg fun hc => (h.regs.2 t).2 hc ht
    have hlen : k + L.length + 1 = k + (learn L t).length := by rw [hL, List.length_cons]; omega
    obtain ⟨e, s', h1, h2, h3, h4, hgone⟩ := h.ids.spawn (by omega) hd
    rw [hlen] at h2
    have hnone : a.info e = none := by
      cases hi : a.info e with
      | none => rfl
      | some m => exact absurd (h.alive (by rw [hi]; simp)) h3
    have hp : p ≠ some e := fun hc => h3 (h.pend e hc)
    refine ⟨e, { a with ents := s', types := (fun t' => if t' = t then some e else a.types t'), info := (fun x => if x = e then some (ComponentMeta.fromGeneric t) else a.info x) }, by unfold AWorld.register AWorld.spawnId; rw [ht, h1], ?_, ?_, ?_, ?_, ?_, ?_, hp, ?_⟩
    · refine ⟨h2, fun x hx => (h4 x).2 (.inr (h.pend x hx)), ?_, ?_, ?_, ?_, ?_, h.clean, ?_⟩
      · intro x
        show (if x = e then some (ComponentMeta.fromGeneric t) else a.info x) ≠ none ↔ s'.isAlive x = .ok true ∧ p ≠ some x
        rw [h4 x]
        by_cases hx : x = e
        · subst hx; simp [hp]
        · simp only [if_neg hx, hx, false_or]
          exact h.built x
      · intro t' c hc
        show (if c = e then some (ComponentMeta.fromGeneric t) else a.info c) = _
        replace hc : (if t' = t then some e else a.types t') = some c := hc
        by_cases ht' : t' = t
        · rw [if_pos ht'] at hc
          cases hc
          rw [if_pos rfl, ht']
        · rw [if_neg ht'] at hc
          have := h.types t' c hc
          rw [if_neg (by rintro rfl; rw [hnone] at this; cases this)]
          exact this
      · intro t1 t2 c g1 g2
        replace g1 : (if t1 = t then some e else a.types t1) = some c := g1
        replace g2 : (if t2 = t then some e else a.types t2) = some c := g2
        by_cases e1 : t1 = t <;> by_cases e2 : t2 = t
        · rw [e1, e2]
        · rw [if_pos e1] at g1; rw [if_neg e2] at g2
          cases g1
          rw [h.types t2 _ g2] at hnone; cases hnone
        · rw [if_neg e1] at g1; rw [if_pos e2] at g2
          cases g2
          rw [h.types t1 _ g1] at hnone; cases hnone
        · rw [if_neg e1] at g1; rw [if_neg e2] at g2
          exact h.inj t1 t2 c g1 g2
      · intro x c g
        obtain ⟨g1, g2⟩ := h.cells x c g
        refine ⟨?_, g2⟩
        show (if x = e then some (ComponentMeta.fromGeneric t) else a.info x) ≠ none
        split
        · simp
        · exact g1
      · intro c g
        obtain ⟨g1, g2⟩ := h.used c g
        refine ⟨?_, g2⟩
        show (if c = e then some (ComponentMeta.fromGeneric t) else a.info c) ≠ none
        split
        · simp
        · exact g1
      · refine ⟨learn_nodup h.regs.1 t, fun t' => ?_⟩
        show (if t' = t then some e else a.types t') ≠ none ↔ _
        rw [mem_learn]
        by_cases ht' : t' = t
        · simp [ht']
        · rw [if_neg ht', h.regs.2 t']; simp [ht']
    · refine ⟨rfl, rfl, rfl, ?_, ?_, ?_, fun x g => (h4 x).2 (.inr g), ?_, hgone⟩
      · intro t' c g
        show (if t' = t then some e else a.types t') = some c
        rw [if_neg (by rintro rfl; rw [ht] at g; cases g)]
        exact g
      · intro x m g
        show (if x = e then some (ComponentMeta.fromGeneric t) else a.info x) = some m
        rw [if_neg (by rintro rfl; rw [hnone] at g; cases g)]
        exact g
      · intro t' c g
        replace g : (if t' = t then some e else a.types t') = some c := g
        by_cases e1 : t' = t
        · rw [if_pos e1] at g; cases g
          exact .inr ⟨hnone, h3⟩
        · rw [if_neg e1] at g; exact .inl g
      · intro x g
        replace g : (if x = e then some (ComponentMeta.fromGeneric t) else a.info x) ≠ none := g
        by_cases e1 : x = e
        · exact .inr ⟨t, by show (if t = t then some e else a.types t) = _; rw [if_pos rfl, e1]⟩
        · rw [if_neg e1] at g; exact .inl g
    · show (if t = t then some e else a.types t) = some e
      rw [if_pos rfl]
    · show (if e = e then some (ComponentMeta.fromGeneric t) else a.info e) = _
      rw [if_pos rfl]
    · intro t' ht'
      show (if t' = t then some e else a.types t') = a.types t'
      rw [if_neg ht']
    · intro x hx hxe
      show (if x = e then some (ComponentMeta.fromGeneric t) else a.info x) = none
      rw [if_neg hxe]; exact hx
    · exact fun _ => h3

end Tidy

/-! ### chains -/

/-- What the caller gives with a call on a builder. -/
def Asked (a : AWorld) : BAct → Prop
  | .with t v => v.length = t.size
  | .withDynamicWithData c v => ∃ m, a.info c = some m ∧ v.length = m.layout.size
  | _ => False

/-- The component and value given with a call on a builder. -/
def Given (a : AWorld) : BAct → EcsId × Bytes → Prop
  | .with t v, cv => a.types t = some cv.1 ∧ cv.2 = v
  | .withDynamicWithData c v, cv => a.info c ≠ none ∧ cv = (c, v)
  | _, _ => False

theorem Grows.asked {a a' : AWorld} (h : Grows a a') {x : BAct} (hx : Asked a x) : Asked a' x := by
  cases x with
  | «with» t v => exact hx
  | withDynamicWithData c v => obtain ⟨m, h1, h2⟩ := hx; exact ⟨m, h.info c m h1, h2⟩
  | withDynamic c => exact hx.elim
  | build => exact hx.elim

theorem Grows.infoNe {a a' : AWorld} (h : Grows a a') {x : EcsId} (hx : a.info x ≠ none) : a'.info x ≠ none := by
  cases hi : a.info x with
  | none => exact absurd hi hx
  | some m => rw [h.info x m hi]; simp

theorem Grows.given {a a' : AWorld} (h : Grows a a') {x : BAct} {cv : EcsId × Bytes} (hx : Given a x cv) : Given a' x cv := by
  cases x with
  | «with» t v => exact ⟨h.types t _ hx.1, hx.2⟩
  | withDynamicWithData c v => exact ⟨h.infoNe hx.1, hx.2⟩
  | withDynamic c => exact hx.elim
  | build => exact hx.elim

theorem Tidy.act {p : Option EcsId} {L : List Ty} {k d : Nat} {a : AWorld} (h : Tidy p L k d a) {x : BAct} (hk : k + (learnAct L x).length ≤ 2 ^ 32) (hd : d < 2 ^ 32) (b : AWorld.Draft) (hx : Asked a x) :
    ∃ cv a', a.act b x = (.ok { b with vals := b.vals ++ [cv] }, a') ∧ Tidy p (learnAct L x) k d a' ∧ Grows a a' ∧ Given a' x cv ∧
      (∀ t c, a'.types t = some c → a.types t = some c ∨ c = cv.1) ∧ a.ActOk b x := by
  cases x with
  | «with» t v =>
    obtain ⟨c, a', h1, h2, h3, h4, h5, h6, _⟩ := h.register (t := t) hk hd
    have hlen : v.length = t.size := hx
    have hal : a'.isAlive c = .ok true := h2.alive (by rw [h5]; simp)
    refine ⟨(c, v), a', ?_, h2, h3, ⟨h4, rfl⟩, ?_, hlen⟩
    · unfold AWorld.act
      simp only [h1]
      unfold AWorld.give
      rw [hal, h5]
      show _ = (Except.ok { b with vals := b.vals ++ [(c, v)] }, a')
      have : v.take (ComponentMeta.fromGeneric t).layout.size = v := List.take_of_length_le (by rw [hlen]; exact Nat.le_refl _)
      simp only [this]
    · intro t' c' g
      by_cases ht : t' = t
      · rw [ht, h4] at g; cases g; exact .inr rfl
      · rw [h6 t' ht] at g; exact .inl g
  | withDynamicWithData c v =>
    obtain ⟨m, hm, hlen⟩ := hx
    have hne : a.info c ≠ none := by rw [hm]; simp
    refine ⟨(c, v), a, ?_, h, Grows.refl a, ⟨hne, rfl⟩, fun t c' g => .inl g, ?_⟩
    · unfold AWorld.act
      show a.give c v b = _
      unfold AWorld.give
      rw [h.alive hne, hm]
      have : v.take m.layout.size = v := List.take_of_length_le (by rw [hlen]; exact Nat.le_refl _)
      simp only [this]
    · intro m' hm'
      rw [hm] at hm'
      cases hm'
      exact Nat.le_of_eq hlen.symm
  | withDynamic c => exact hx.elim
  | build => exact hx.elim

theorem Tidy.chain {p : Option EcsId} {k d : Nat} (hd : d < 2 ^ 32) (ys : List BAct) (xs : List BAct) : ∀ {L : List Ty} {a : AWorld} (b : AWorld.Draft), Tidy p L k d a →
    k + (xs.foldl learnAct L).length ≤ 2 ^ 32 → (∀ x ∈ xs, Asked a x) →
    ∃ vs a', AWorld.acts b (xs ++ ys) a = AWorld.acts { b with vals := b.vals ++ vs } ys a' ∧
      (AWorld.ActsOk { b with vals := b.vals ++ vs } ys a' → AWorld.ActsOk b (xs ++ ys) a) ∧ Tidy p (xs.foldl learnAct L) k d a' ∧ Grows a a' ∧
      Pairs (Given a') xs vs ∧ (∀ t c, a'.types t = some c → a.types t = some c ∨ c ∈ vs.map Prod.fst) := by
  induction xs with
  | nil =>
    intro L a b h _ _
    refine ⟨[], a, ?_, ?_, h, Grows.refl a, .nil, fun t c g => .inl g⟩
    · rw [List.append_nil]; rfl
    · rw [List.append_nil]; exact fun g => g
  | cons x xs ih =>
    intro L a b h hk hx
    rw [List.foldl_cons] at hk ⊢
    have hle := learnActs_length xs (learnAct L x)
    obtain ⟨cv, a1, h1, h2, h3, h4, h5, h6⟩ := h.act (by omega) hd b (hx x List.mem_cons_self)
    obtain ⟨vs, a', g1, g2, g3, g4, g5, g6⟩ := ih (a := a1) { b with vals := b.vals ++ [cv] } h2 hk
      (fun y hy => h3.asked (hx y (List.mem_cons_of_mem _ hy)))
    have hvals : b.vals ++ cv :: vs = (b.vals ++ [cv]) ++ vs := by simp
    refine ⟨cv :: vs, a', ?_, ?_, g3, h3.trans g4, .cons (g4.given h4) g5, ?_⟩
    · rw [List.cons_append, AWorld.acts, h1, hvals]; exact g1
    · rw [hvals, List.cons_append, AWorld.ActsOk, h1]; exact fun g => ⟨h6, g2 g⟩
    · intro t c g
      rcases g6 t c g with g | g
      · rcases h5 t c g with g | g
        · exact .inl g
        · exact .inr (by rw [g]; exact List.mem_cons_self)
      · exact .inr (List.mem_cons_of_mem _ g)

/-- What a spawn did. -/
structure Spawned (a a' : AWorld) (e : EcsId) (vs : List (EcsId × Bytes)) : Prop where
  fresh : a.isAlive e ≠ .ok true
  unbuilt : a.info e = none
  nodup : (vs.map Prod.fst).Nodup
  cell : ∀ x c, a'.cell x c = if x = e then vs.lookup c else a.cell x c
  used : ∀ c, a'.used c = (a.used c || (vs.map Prod.fst).contains c)
  types : ∀ t c, a.types t = some c → a'.types t = some c
  info : ∀ x m, a.info x = some m → a'.info x = some m
  newType : ∀ t c, a'.types t = some c → a.types t = some c ∨ (a.info c = none ∧ c ≠ e ∧ c ∈ vs.map Prod.fst)
  built : ∀ x, a'.info x ≠ none → a.info x ≠ none ∨ x = e ∨ ∃ t, a'.types t = some x
  gone : ∀ x, Gone a.ents x → Gone a'.ents x

theorem Tidy.finish {L : List Ty} {k d : Nat} {a : AWorld} {b : AWorld.Draft} (h : Tidy (some b.entity) L k d a) (hv : ∀ c ∈ b.vals.map Prod.fst, a.info c ≠ none) :
    Tidy none L k d (a.finish b) := by
  have hnone : a.info b.entity = none := by
    cases hi : a.info b.entity with
    | none => rfl
    | some m => exact absurd rfl ((h.built b.entity).1 (by rw [hi]; simp)).2
  have hne : ∀ x, a.info x ≠ none → x ≠ b.entity := by rintro x hx rfl; exact hx hnone
  have hinfo : ∀ x, (a.finish b).info x = if x = b.entity then some b.cmeta else a.info x := fun _ => rfl
  have hmono : ∀ x, a.info x ≠ none → (a.finish b).info x ≠ none := by
    intro x hx
    rw [hinfo, if_neg (hne x hx)]; exact hx
  have hused : ∀ c, (a.finish b).used c = (a.used c || (b.vals.map Prod.fst).contains c) := fun _ => rfl
  refine ⟨h.ids, (fun e he => by cases he), ?_, ?_, h.inj, ?_, ?_, ?_, h.regs⟩
  · intro x
    rw [hinfo]
    show _ ↔ a.isAlive x = .ok true ∧ none ≠ some x
    by_cases hx : x = b.entity
    · subst hx
      simp
      exact h.pend _ rfl
    · rw [if_neg hx, h.built x]
      simp
      intro _ hc
      exact hx hc.symm
  · intro t c g
    have := h.types t c g
    rw [hinfo, if_neg (hne c (by rw [this]; simp))]
    exact this
  · intro x c g
    replace g : (if x = b.entity then b.vals.lookup c else a.cell x c) ≠ none := g
    rw [hused]
    by_cases hx : x = b.entity
    · rw [if_pos hx] at g
      rw [hinfo, if_pos hx]
      refine ⟨by simp, ?_⟩
      have : c ∈ b.vals.map Prod.fst := by
        apply Classical.byContradiction
        intro hc
        apply g
        rw [List.lookup_eq_none_iff]
        intro q hq
        rw [bne_iff_ne]
        rintro rfl
        exact hc (List.mem_map_of_mem hq)
      rw [List.contains_iff_mem.2 this, Bool.or_true]
    · rw [if_neg hx] at g
      obtain ⟨g1, g2⟩ := h.cells x c g
      exact ⟨hmono x g1, by rw [g2]; rfl⟩
  · intro c g
    rw [hused] at g
    have hlock : (a.finish b).lock c = if c ∈ b.vals.map Prod.fst ∧ a.lock c = none then some false else a.lock c := rfl
    rcases Bool.or_eq_true_iff.1 g with g | g
    · obtain ⟨g1, g2⟩ := h.used c g
      refine ⟨hmono c g1, ?_⟩
      rw [hlock, g2]
      simp
    · have hm : c ∈ b.vals.map Prod.fst := List.contains_iff_mem.1 g
      refine ⟨hmono c (hv c hm), ?_⟩
      rw [hlock]
      cases hl : a.lock c with
      | none => rw [if_pos ⟨hm, rfl⟩]
      | some q =>
        rw [if_neg (by simp)]
        cases q
        · rfl
        · exact absurd hl (h.clean c)
  · intro c
    show (if c ∈ b.vals.map Prod.fst ∧ a.lock c = none then some false else a.lock c) ≠ some true
    split
    · simp
    · exact h.clean c

/-- The pairs name existing components. -/
theorem given_info {p : Option EcsId} {L : List Ty} {k d : Nat} {a : AWorld} (h : Tidy p L k d a) {xs : List BAct} {vs : List (EcsId × Bytes)} (hv : Pairs (Given a) xs vs) :
    ∀ c ∈ vs.map Prod.fst, a.info c ≠ none := by
  induction hv with
  | nil => intro c hc; cases hc
  | @cons x cv _ _ hx _ ih =>
    intro c hc
    rcases List.mem_cons.1 hc with rfl | hc
    · cases x with
      | «with» t v => rw [h.types t _ hx.1]; simp
      | withDynamicWithData c v => rw [hx.2]; exact hx.1
      | withDynamic c => exact hx.elim
      | build => exact hx.elim
    · exact ih c hc

theorem Tidy.spawn {L : List Ty} {k d : Nat} {a : AWorld} (h : Tidy none L k d a) (hd : d < 2 ^ 32) (kind : World.SpawnKind) {xs : List BAct} (hk : k + 1 + (xs.foldl learnAct L).length ≤ 2 ^ 32)
    (hx : ∀ x ∈ xs, Asked a x)
    (hnd : ∀ (a' : AWorld) (vs : List (EcsId × Bytes)), (∀ t t' c, a'.types t = some c → a'.types t' = some c → t = t') → Pairs (Given a') xs vs →
      (vs.map Prod.fst).Nodup) :
    ∃ e vs a', a.spawn kind (xs ++ [.build]) = (.ok e, a') ∧
      (∀ e a1, a.spawnId = (.ok e, a1) → AWorld.ActsOk ⟨e, AWorld.metaOf kind, []⟩ (xs ++ [.build]) a1) ∧
      Tidy none (xs.foldl learnAct L) (k + 1) d a' ∧ Spawned a a' e vs ∧ Pairs (Given a') xs vs ∧ a'.info e = some (AWorld.metaOf kind) := by
  obtain ⟨e, a1, h1, h2, h3, h4, h5, h6, h7⟩ := h.spawnId (by have := learnActs_length xs L; omega) hd
  obtain ⟨vs, a2, g1, g2, g3, g4, g5, g6⟩ := Tidy.chain hd [.build] xs (a := a1) ⟨e, AWorld.metaOf kind, []⟩ h2 hk (fun x hx' => h3.asked (hx x hx'))
  have hv := given_info g3 g5
  have hnd' := hnd a2 vs g3.inj g5
  have hnone : a2.info e = none := by
    cases hi : a2.info e with
    | none => rfl
    | some m => exact absurd rfl ((g3.built e).1 (by rw [hi]; simp)).2
  have hmono : ∀ x m, a2.info x = some m → (a2.finish ⟨e, AWorld.metaOf kind, [] ++ vs⟩).info x = some m := by
    intro x m hm
    show (if x = e then some (AWorld.metaOf kind) else a2.info x) = some m
    rw [if_neg (by rintro rfl; rw [hnone] at hm; cases hm)]; exact hm
  refine ⟨e, vs, a2.finish ⟨e, AWorld.metaOf kind, [] ++ vs⟩, ?_, ?_, ?_, ?_, ?_, ?_⟩
  · unfold AWorld.spawn
    rw [h1]
    simp only [g1]
    rfl
  · intro e' a1' he
    rw [h1] at he
    cases he
    exact g2 ⟨⟨hnone, hnd'⟩, trivial⟩
  · exact Tidy.finish (b := ⟨e, AWorld.metaOf kind, [] ++ vs⟩) g3 hv
  · have G := h3.trans g4
    refine ⟨h7, h5, hnd', ?_, ?_, G.types, fun x m hm => hmono x m (G.info x m hm), ?_, ?_, G.gone⟩
    · intro x c
      show (if x = e then vs.lookup c else a2.cell x c) = _
      rw [G.cell]
    · intro c
      show (a2.used c || (vs.map Prod.fst).contains c) = _
      rw [G.used]
    · intro t c g
      rcases g6 t c g with g | g'
      · rw [h4] at g; exact .inl g
      · rcases G.fresh t c g with g | ⟨g1, _⟩
        · exact .inl g
        · refine .inr ⟨g1, ?_, g'⟩
          rintro rfl
          exact hv _ g' hnone
    · intro x g
      replace g : (if x = e then some (AWorld.metaOf kind) else a2.info x) ≠ none := g
      by_cases hx : x = e
      · exact .inr (.inl hx)
      · rw [if_neg hx] at g
        rcases G.built x g with g | g
        · exact .inl g
        · exact .inr (.inr g)
  · refine g5.imp ?_
    intro x cv _ hxv
    cases x with
    | «with» t v => exact hxv
    | withDynamicWithData c v =>
      refine ⟨?_, hxv.2⟩
      cases hi : a2.info c with
      | none => exact absurd hi hxv.1
      | some m => rw [hmono c m hi]; simp
    | withDynamic c => exact hxv.elim
    | build => exact hxv.elim
  · show (if e = e then some (AWorld.metaOf kind) else a2.info e) = _
    rw [if_pos rfl]

/-- What adding a component did. -/
structure Added (a a' : AWorld) (e c : EcsId) (v : Bytes) : Prop where
  cell : ∀ x y, a'.cell x y = if x = e ∧ y = c then some v else a.cell x y
  used : ∀ y, a'.used y = (a.used y || y == c)
  types : ∀ t c, a.types t = some c → a'.types t = some c
  info : ∀ x m, a.info x = some m → a'.info x = some m
  newType : ∀ t y, a'.types t = some y → a.types t = some y ∨ (a.info y = none ∧ y = c)
  built : ∀ x, a'.info x ≠ none → a.info x ≠ none ∨ ∃ t, a'.types t = some x
  gone : ∀ x, Gone a.ents x → Gone a'.ents x

theorem Tidy.addDyn {L : List Ty} {k d : Nat} {a : AWorld} (h : Tidy none L k d a) {e c : EcsId} {m : ComponentMeta} {v : Bytes} (he : a.info e ≠ none) (hm : a.info c = some m)
    (hc : a.cell e c = none) (hv : v.length = m.layout.size) :
    ∃ a', a.addDyn e c v = (.ok (), a') ∧ Tidy none L k d a' ∧ Added a a' e c v ∧ a'.types = a.types := by
  have hmc : a.info c ≠ none := by rw [hm]; simp
  have htake : v.take m.layout.size = v := List.take_of_length_le (by rw [hv]; exact Nat.le_refl _)
  have hused : ∀ y, (((({ a with cell := fun x y => if x = e ∧ y = c then some v else a.cell x y } : AWorld).use [c]).addLocks [c])).used y = (a.used y || y == c) := by
    intro y
    show (a.used y || [c].contains y) = _
    simp [List.contains, List.elem]
    cases hyc : (y == c) <;> rfl
  refine ⟨((({ a with cell := fun x y => if x = e ∧ y = c then some v else a.cell x y } : AWorld).use [c]).addLocks [c]), ?_, ?_, ?_, rfl⟩
  · unfold AWorld.addDyn
    rw [h.alive he, h.alive hmc, hc, hm]
    cases hi : a.info e with
    | none => exact absurd hi he
    | some _ => simp only [htake]
  · refine ⟨h.ids, h.pend, h.built, h.types, h.inj, ?_, ?_, ?_, h.regs⟩
    · intro x y g
      replace g : (if x = e ∧ y = c then some v else a.cell x y) ≠ none := g
      rw [hused]
      by_cases hxy : x = e ∧ y = c
      · obtain ⟨rfl, rfl⟩ := hxy
        exact ⟨he, by simp⟩
      · rw [if_neg hxy] at g
        obtain ⟨g1, g2⟩ := h.cells x y g
        exact ⟨g1, by rw [g2]; rfl⟩
    · intro y g
      rw [hused] at g
      have hl : ((({ a with cell := fun x y => if x = e ∧ y = c then some v else a.cell x y } : AWorld).use [c]).addLocks [c]).lock y =
        if y ∈ [c] ∧ a.lock y = none then some false else a.lock y := rfl
      rcases Bool.or_eq_true_iff.1 g with g | g
      · obtain ⟨g1, g2⟩ := h.used y g
        refine ⟨g1, ?_⟩
        rw [hl, g2]; simp
      · have : y = c := by simpa using g
        subst this
        refine ⟨hmc, ?_⟩
        rw [hl]
        cases hq : a.lock y with
        | none => rw [if_pos ⟨List.mem_singleton.2 rfl, rfl⟩]
        | some q =>
          rw [if_neg (by simp)]
          cases q
          · rfl
          · exact absurd hq (h.clean y)
    · intro y
      show (if y ∈ [c] ∧ a.lock y = none then some false else a.lock y) ≠ some true
      split
      · simp
      · exact h.clean y
  · exact ⟨fun _ _ => rfl, hused, fun _ _ g => g, fun _ _ g => g, fun _ _ g => .inl g, fun _ g => .inl g, fun _ g => g⟩

theorem Tidy.addComponent {L : List Ty} {k d : Nat} {a : AWorld} (h : Tidy none L k d a) {e : EcsId} {t : Ty} {v : Bytes} (hk : k + (learn L t).length ≤ 2 ^ 32) (hd : d < 2 ^ 32) (he : a.info e ≠ none)
    (hc : ∀ c, a.types t = some c → a.cell e c = none) (hv : v.length = t.size) :
    ∃ c a', a.addComponent e t v = (.ok (), a') ∧ Tidy none (learn L t) k d a' ∧ Added a a' e c v ∧ a'.types t = some c := by
  obtain ⟨c, a1, h1, h2, h3, h4, h5, h6, _, _, h7⟩ := h.register (t := t) hk hd
  have hcell : a1.cell e c = none := by
    rw [h3.cell]
    cases ht : a.types t with
    | some c' =>
      have := h3.types t c' ht
      rw [h4] at this
      cases this
      exact hc c ht
    | none =>
      cases hi : a.cell e c with
      | none => rfl
      | some bs =>
        have := h.alive (h.used c (h.cells e c (by rw [hi]; simp)).2).1
        exact absurd this (h7 ht)
  obtain ⟨a2, g1, g2, g3, g4⟩ := h2.addDyn (h3.infoNe he) h5 hcell (by rw [hv]; rfl)
  refine ⟨c, a2, ?_, g2, ?_, by rw [g4]; exact h4⟩
  · unfold AWorld.addComponent
    rw [h.alive he, h1]
    exact g1
  · refine ⟨?_, ?_, fun t' y g => g3.types t' y (h3.types t' y g), fun x m g => g3.info x m (h3.info x m g), ?_, ?_, fun x g => g3.gone x (h3.gone x g)⟩
    · intro x y; rw [g3.cell, h3.cell]
    · intro y; rw [g3.used, h3.used]
    · intro t' y g
      rw [g4] at g
      by_cases ht : t' = t
      · subst ht
        rw [h4] at g; cases g
        rcases h3.fresh _ _ h4 with g | ⟨g, _⟩
        · exact .inl g
        · exact .inr ⟨g, rfl⟩
      · rw [h6 t' ht] at g; exact .inl g
    · intro x g
      rcases g3.built x g with g | g
      · rcases h3.built x g with g | ⟨t', g⟩
        · exact .inl g
        · exact .inr ⟨t', by rw [g4]; exact g⟩
      · exact .inr g

/-- Values are changed, or taken away. -/
theorem Tidy.setCell {p : Option EcsId} {L : List Ty} {k d : Nat} {a : AWorld} (h : Tidy p L k d a) {cell' : EcsId → EcsId → Option Bytes}
    (hc : ∀ x y, cell' x y ≠ none → a.cell x y ≠ none) : Tidy p L k d { a with cell := cell' } :=
  ⟨h.ids, h.pend, h.built, h.types, h.inj, fun x y g => h.cells x y (hc x y g), h.used, h.clean, h.regs⟩

theorem Tidy.removeDyn {L : List Ty} {k d : Nat} {a : AWorld} (h : Tidy none L k d a) {e c : EcsId} (hc : a.cell e c ≠ none) :
    a.removeDyn e c = (.ok (), { a with cell := fun x y => if x = e ∧ y = c then none else a.cell x y }) ∧
      Tidy none L k d { a with cell := fun x y => if x = e ∧ y = c then none else a.cell x y } := by
  obtain ⟨h1, h2⟩ := h.cells e c hc
  refine ⟨?_, h.setCell ?_⟩
  · unfold AWorld.removeDyn
    rw [h.alive h1, h.alive (h.used c h2).1]
    cases hi : a.info e with
    | none => exact absurd hi h1
    | some _ =>
      cases hj : a.cell e c with
      | none => exact absurd hj hc
      | some _ => rfl
  · intro x y g
    split at g
    · exact absurd rfl g
    · exact g

theorem Tidy.removeComponent {L : List Ty} {k d : Nat} {a : AWorld} (h : Tidy none L k d a) {e c : EcsId} {t : Ty} (ht : a.types t = some c) (hc : a.cell e c ≠ none) :
    a.removeComponent e t = (.ok (), { a with cell := fun x y => if x = e ∧ y = c then none else a.cell x y }) ∧
      Tidy none L k d { a with cell := fun x y => if x = e ∧ y = c then none else a.cell x y } := by
  obtain ⟨h1, h2⟩ := h.removeDyn hc
  refine ⟨?_, h2⟩
  unfold AWorld.removeComponent AWorld.register
  rw [h.alive (h.cells e c hc).1, ht]
  exact h1

theorem Tidy.despawn {L : List Ty} {k d : Nat} {a : AWorld} (h : Tidy none L k d a) {e : EcsId} (he : a.info e ≠ none) (hu : a.used e = false) (ht : ∀ t, a.types t ≠ some e) :
    ∃ a', a.despawn e = (.ok true, a') ∧ Tidy none L k (d + 1) a' ∧ (∀ x y, a'.cell x y = if x = e then none else a.cell x y) ∧ a'.types = a.types ∧ a'.used = a.used ∧
      (∀ x, a'.info x = if x = e then none else a.info x) ∧ Gone a'.ents e ∧ (∀ x, Gone a.ents x → Gone a'.ents x) := by
  obtain ⟨s', g1, g2, g3, g4, g5⟩ := h.ids.despawn (h.alive he)
  refine ⟨{ a with ents := s', info := (fun x => if x = e then none else a.info x), cell := (fun x y => if x = e then none else a.cell x y) }, ?_, ?_,
    fun _ _ => rfl, rfl, rfl, fun _ => rfl, g4, g5⟩
  · unfold AWorld.despawn
    rw [h.alive he, hu, g1]
    cases hi : a.info e with
    | none => exact absurd hi he
    | some _ => rfl
  · refine ⟨g2, (fun x hx => by cases hx), ?_, ?_, h.inj, ?_, ?_, h.clean, h.regs⟩
    · intro x
      show (if x = e then none else a.info x) ≠ none ↔ s'.isAlive x = .ok true ∧ none ≠ some x
      rw [g3 x]
      by_cases hx : x = e
      · rw [if_pos hx]; simp [hx]
      · rw [if_neg hx, h.built x]
        simp [hx]
        rfl
    · intro t c g
      show (if c = e then none else a.info c) = _
      rw [if_neg (by rintro rfl; exact ht t g)]
      exact h.types t c g
    · intro x y g
      replace g : (if x = e then none else a.cell x y) ≠ none := g
      show (if x = e then none else a.info x) ≠ none ∧ a.used y = true
      by_cases hx : x = e
      · rw [if_pos hx] at g; exact absurd rfl g
      · rw [if_neg hx] at g
        rw [if_neg hx]; exact h.cells x y g
    · intro c g
      show (if c = e then none else a.info c) ≠ none ∧ a.lock c = some false
      rw [if_neg (by rintro rfl; rw [hu] at g; cases g)]
      exact h.used c g

end Ellecs
