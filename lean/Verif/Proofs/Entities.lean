import Verif.Spec.Entities
/-! # Lemmas about the id allocator -/
namespace Ellecs.Alloc

theorem uindex_lt (e : EcsId) : e.uindex < 2 ^ 32 := e.idx.isLt

theorem new_eq_iff (i g : BitVec 32) (e : EcsId) : EcsId.new i g = e ↔ i = e.idx ∧ g = e.gen := by
  cases e; simp [EcsId.new]; exact And.comm

theorem liveSpec_snoc (h : List (Op × Out)) (ev : Op × Out) (e : EcsId) :
    liveSpec (h ++ [ev]) e = liveUpd e (liveSpec h e) ev := by
  simp [liveSpec]

theorem handedOut_snoc (h : List (Op × Out)) (ev : Op × Out) :
    handedOut (h ++ [ev]) = handedOut h ++ (idOf ev).toList := by
  simp only [handedOut, List.filterMap_append, List.filterMap_cons, List.filterMap_nil]
  cases idOf ev <;> simp

/-- The generations handed out for slot `i`. -/
def gensOf (h : List (Op × Out)) (i : BitVec 32) : List (BitVec 32) :=
  ((handedOut h).filter (fun e => e.idx = i)).map EcsId.gen

theorem gensOf_snoc_none (h : List (Op × Out)) (ev : Op × Out) (i : BitVec 32) (hn : idOf ev = none) :
    gensOf (h ++ [ev]) i = gensOf h i := by
  simp [gensOf, handedOut_snoc, hn]

theorem gensOf_snoc_some (h : List (Op × Out)) (ev : Op × Out) (i : BitVec 32) (e : EcsId)
    (hn : idOf ev = some e) :
    gensOf (h ++ [ev]) i = gensOf h i ++ if e.idx = i then [e.gen] else [] := by
  simp only [gensOf, handedOut_snoc, hn, Option.toList, List.filter_append, List.map_append]
  split <;> simp_all

/-- What the allocator's state is, as a function of the history. -/
structure Inv (h : List (Op × Out)) (s : Entities) : Prop where
  live : ∀ e : EcsId, liveSpec h e =
    (match s.generations[e.uindex]? with | some (a, g) => a && (e.gen == g) | none => false)
  gens : ∀ i : BitVec 32,
    match s.generations[i.toNat]? with
    | some (_, g) => ∃ n : Nat, gensOf h i = (List.range (n + 1)).map (BitVec.ofNat 32) ∧ g = BitVec.ofNat 32 n
    | none => gensOf h i = []
  free : s.despawned.Nodup
  freeIff : ∀ i, i ∈ s.despawned ↔ i < 2 ^ 32 ∧ ∃ g, s.generations[i]? = some (false, g)
  freeSpec : freeSpec h = s.despawned.map (BitVec.ofNat 32)

theorem inv_new : Inv [] Entities.new := by
  constructor
  · intro e; simp [liveSpec, Entities.new]
  · intro i; simp [Entities.new, gensOf, handedOut]
  · simp [Entities.new]
  · intro i; simp [Entities.new]
  · simp [Alloc.freeSpec, Entities.new]

theorem toNat_inj32 {i j : BitVec 32} : i.toNat = j.toNat ↔ i = j := BitVec.toNat_inj

theorem ofNat_toNat_lt {i : Nat} (h : i < 2 ^ 32) : (BitVec.ofNat 32 i).toNat = i := by
  simp only [BitVec.toNat_ofNat]; exact Nat.mod_eq_of_lt h

theorem ofNat_succ (n : Nat) : BitVec.ofNat 32 n + 1 = BitVec.ofNat 32 (n + 1) := by
  rw [BitVec.ofNat_add]; rfl

theorem inv_quiet {h : List (Op × Out)} {s : Entities} (hi : Inv h s) (ev : Op × Out)
    (h1 : ∀ e, liveUpd e (liveSpec h e) ev = liveSpec h e) (h2 : idOf ev = none)
    (h3 : Alloc.freeSpec (h ++ [ev]) = Alloc.freeSpec h) : Inv (h ++ [ev]) s := by
  constructor
  · intro e; rw [liveSpec_snoc, h1, hi.live]
  · intro i; rw [gensOf_snoc_none _ _ _ h2]; exact hi.gens i
  · exact hi.free
  · exact hi.freeIff
  · rw [h3]; exact hi.freeSpec

theorem inv_spawn_reuse {h : List (Op × Out)} {s : Entities} (hi : Inv h s) {i : Nat} {rest : List Nat}
    {g : BitVec 32} (hd : s.despawned = i :: rest) (hg : s.generations[i]? = some (false, g)) (h32 : i < 2 ^ 32)
    (op : Op) :
    Inv (h ++ [(op, .spawned (EcsId.new (BitVec.ofNat 32 i) (g + 1)))])
      ⟨s.generations.set i (true, g + 1), rest⟩ := by
  have hlen : i < s.generations.length := by
    rcases List.getElem?_eq_some_iff.1 hg with ⟨hh, _⟩; exact hh
  constructor
  · intro e
    rw [liveSpec_snoc]
    simp only [liveUpd, new_eq_iff, List.getElem?_set]
    have hl := hi.live e
    by_cases hei : e.uindex = i
    · have he : e.idx = BitVec.ofNat 32 i := by
        rw [← toNat_inj32, ofNat_toNat_lt h32]; exact hei
      rw [hei, hg] at hl
      simp only [Bool.false_and] at hl
      simp only [hei, hlen, hl, he, if_true, true_and, Bool.true_and]
      by_cases hh : e.gen = g + 1
      · simp [hh]
      · have : ¬ g + 1 = e.gen := fun hx => hh hx.symm
        simp only [this, if_false]; exact (beq_eq_false_iff_ne.2 hh).symm
    · have he : e.idx ≠ BitVec.ofNat 32 i := by
        intro hh; apply hei; show e.idx.toNat = i; rw [hh, ofNat_toNat_lt h32]
      have hne : ¬ (BitVec.ofNat 32 i = e.idx ∧ g + 1 = e.gen) := by
        intro hh; exact he hh.1.symm
      rw [if_neg hne, if_neg (fun hh => hei hh.symm)]
      exact hl
  · intro j
    have hj := hi.gens j
    rw [gensOf_snoc_some _ _ _ _ rfl]
    simp only [List.getElem?_set]
    by_cases hji : i = j.toNat
    · have hj' : BitVec.ofNat 32 i = j := by rw [← toNat_inj32, ofNat_toNat_lt h32]; exact hji
      rw [← hji, hg] at hj
      obtain ⟨n, h1, h2⟩ := hj
      simp only [hji.symm, if_true, hlen, hj']
      refine ⟨n + 1, ?_, ?_⟩
      · rw [h1, List.range_succ (n := n + 1), List.map_append, h2, ofNat_succ]; rfl
      · rw [h2, ofNat_succ]
    · have hj' : ¬ BitVec.ofNat 32 i = j := by
        intro hh; apply hji; rw [← hh, ofNat_toNat_lt h32]
      simp only [if_neg hji, if_neg hj', List.append_nil]
      exact hj
  · have := hi.free; rw [hd] at this; exact (List.nodup_cons.1 this).2
  · intro j
    have hj := hi.freeIff j
    have hn := hi.free; rw [hd] at hn hj
    have hnot := (List.nodup_cons.1 hn).1
    simp only [List.getElem?_set]
    by_cases hij : i = j
    · subst hij
      simp [hnot, hlen]
    · simp only [if_neg hij]
      rw [← hj]; simp [Ne.symm hij]
  · rw [Alloc.freeSpec, List.foldl_append]
    change List.filter _ (Alloc.freeSpec h) = _
    have hn := hi.free; rw [hd] at hn
    have hnot := List.nodup_cons.1 hn
    have hall : ∀ j ∈ rest, j < 2 ^ 32 := fun j hj =>
      ((hi.freeIff j).1 (by rw [hd]; exact List.mem_cons_of_mem _ hj)).1
    rw [hi.freeSpec, hd]
    simp only [List.map_cons, ne_eq, List.filter_cons, not_true, decide_false, Bool.false_eq_true,
      if_false]
    rw [List.filter_eq_self]
    intro x hx
    obtain ⟨j, hj, rfl⟩ := List.mem_map.1 hx
    rw [decide_eq_true_eq]
    intro hh
    have := congrArg BitVec.toNat hh
    rw [ofNat_toNat_lt (hall j hj), ofNat_toNat_lt h32] at this
    subst this; exact hnot.1 hj

theorem inv_spawn_new {h : List (Op × Out)} {s : Entities} (hi : Inv h s) (hd : s.despawned = [])
    (h32 : s.generations.length < 2 ^ 32) (op : Op) :
    Inv (h ++ [(op, .spawned (EcsId.new (BitVec.ofNat 32 s.generations.length) 0))])
      ⟨s.generations ++ [(true, 0)], []⟩ := by
  have hcases : ∀ j : Nat, (s.generations ++ [(true, (0 : BitVec 32))])[j]? =
      if j = s.generations.length then some (true, 0) else s.generations[j]? := by
    intro j
    by_cases hj : j = s.generations.length
    · subst hj; simp
    · rw [if_neg hj, List.getElem?_append]
      split
      · rfl
      · rw [List.getElem?_eq_none (by simp; omega), List.getElem?_eq_none (by omega)]
  constructor
  · intro e
    rw [liveSpec_snoc]
    have hl := hi.live e
    simp only [liveUpd, new_eq_iff, hcases]
    by_cases hei : e.uindex = s.generations.length
    · have he : e.idx = BitVec.ofNat 32 s.generations.length := by
        rw [← toNat_inj32, ofNat_toNat_lt h32]; exact hei
      rw [hei] at hl
      rw [List.getElem?_eq_none (Nat.le_refl _)] at hl
      simp only [hei, hl, he, if_true, true_and, Bool.true_and]
      by_cases hh : e.gen = 0
      · simp [hh]
      · have : ¬ 0 = e.gen := fun hx => hh hx.symm
        simp only [this, if_false]; exact (beq_eq_false_iff_ne.2 hh).symm
    · have he : e.idx ≠ BitVec.ofNat 32 s.generations.length := by
        intro hh; apply hei; show e.idx.toNat = _; rw [hh, ofNat_toNat_lt h32]
      have hne : ¬ (BitVec.ofNat 32 s.generations.length = e.idx ∧ 0 = e.gen) := by
        intro hh; exact he hh.1.symm
      rw [if_neg hne, if_neg hei]
      exact hl
  · intro j
    have hj := hi.gens j
    rw [gensOf_snoc_some _ _ _ _ rfl]
    simp only [hcases]
    by_cases hji : j.toNat = s.generations.length
    · have hj' : BitVec.ofNat 32 s.generations.length = j := by
        rw [← toNat_inj32, ofNat_toNat_lt h32]; exact hji.symm
      rw [hji, List.getElem?_eq_none (Nat.le_refl _)] at hj
      simp only [if_pos hji, hj', if_true]
      exact ⟨0, by rw [hj]; rfl, rfl⟩
    · have hj' : ¬ BitVec.ofNat 32 s.generations.length = j := by
        intro hh; apply hji; rw [← hh, ofNat_toNat_lt h32]
      simp only [if_neg hji, if_neg hj', List.append_nil]
      exact hj
  · exact List.nodup_nil
  · intro j
    have hj := hi.freeIff j
    rw [hd] at hj
    simp only [hcases]
    by_cases hij : j = s.generations.length
    · simp [hij]
    · simp only [if_neg hij]; exact hj
  · rw [Alloc.freeSpec, List.foldl_append]
    change List.filter _ (Alloc.freeSpec h) = _
    rw [hi.freeSpec, hd]; rfl

theorem inv_spawn_out {h : List (Op × Out)} {s : Entities} (hi : Inv h s) (hd : s.despawned = [])
    (h32 : ¬ s.generations.length < 2 ^ 32) (op : Op) (f : Fault) :
    Inv (h ++ [(op, .panic f)]) ⟨s.generations ++ [(true, 0)], []⟩ := by
  have hlt : ∀ j < 2 ^ 32, (s.generations ++ [(true, (0 : BitVec 32))])[j]? = s.generations[j]? := by
    intro j hj
    rw [List.getElem?_append, if_pos (by omega)]
  constructor
  · intro e
    rw [liveSpec_snoc, hlt _ (uindex_lt e)]
    have : liveUpd e (liveSpec h e) (op, .panic f) = liveSpec h e := by
      cases op <;> rfl
    rw [this]; exact hi.live e
  · intro j
    rw [gensOf_snoc_none _ _ _ (by cases op <;> rfl), hlt _ j.isLt]; exact hi.gens j
  · exact List.nodup_nil
  · intro j
    have hj := hi.freeIff j
    rw [hd] at hj
    rw [hj]
    constructor
    · rintro ⟨a, b⟩; exact ⟨a, by rw [hlt _ a]; exact b⟩
    · rintro ⟨a, b⟩; exact ⟨a, by rw [hlt _ a] at b; exact b⟩
  · rw [Alloc.freeSpec, List.foldl_append]
    have : Alloc.freeSpec h = [] := by rw [hi.freeSpec, hd]; rfl
    change (match op, Out.panic f with
      | _, .spawned e => List.filter (fun i => i ≠ e.idx) (Alloc.freeSpec h)
      | .despawn e, .ret true => e.idx :: Alloc.freeSpec h
      | _, _ => Alloc.freeSpec h) = _
    rw [this]; cases op <;> rfl

theorem inv_despawn {h : List (Op × Out)} {s : Entities} (hi : Inv h s) (e : EcsId) {g : BitVec 32}
    (hg : s.generations[e.uindex]? = some (true, g)) (heg : e.gen = g) :
    Inv (h ++ [(.despawn e, .ret true)]) ⟨s.generations.set e.uindex (false, g), e.uindex :: s.despawned⟩ := by
  have hlen : e.uindex < s.generations.length := by
    rcases List.getElem?_eq_some_iff.1 hg with ⟨hh, _⟩; exact hh
  constructor
  · intro e'
    rw [liveSpec_snoc]
    have hl := hi.live e'
    simp only [liveUpd, List.getElem?_set]
    by_cases hei : e.uindex = e'.uindex
    · rw [← hei, hg] at hl
      rw [if_pos hei, if_pos hlen]
      simp only [Bool.false_and]
      by_cases hee : e = e'
      · simp [hee]
      · rw [if_neg hee, hl]
        have : ¬ e'.gen = g := by
          intro hh; apply hee
          have : e.idx = e'.idx := toNat_inj32.1 hei
          cases e; cases e'; simp_all
        simp [this]
    · have hne : ¬ e = e' := fun hh => hei (by rw [hh])
      rw [if_neg hne, if_neg hei]; exact hl
  · intro j
    have hj := hi.gens j
    rw [gensOf_snoc_none _ _ _ rfl]
    simp only [List.getElem?_set]
    by_cases hji : e.uindex = j.toNat
    · rw [← hji, hg] at hj
      simp only [hji.symm, if_true, hlen]
      exact hj
    · simp only [if_neg hji]; exact hj
  · refine List.nodup_cons.2 ⟨?_, hi.free⟩
    intro hm
    obtain ⟨_, g', hg'⟩ := (hi.freeIff _).1 hm
    rw [hg] at hg'; simp at hg'
  · intro j
    have hj := hi.freeIff j
    simp only [List.getElem?_set, List.mem_cons]
    by_cases hij : e.uindex = j
    · simp only [hij, if_true, true_or]
      rw [← hij]; exact ⟨fun _ => ⟨uindex_lt e, g, by simp [hlen]⟩, fun _ => trivial⟩
    · rw [if_neg hij, ← hj]
      constructor
      · rintro (h | h)
        · exact absurd h.symm hij
        · exact h
      · exact Or.inr
  · rw [Alloc.freeSpec, List.foldl_append]
    change e.idx :: Alloc.freeSpec h = _
    rw [hi.freeSpec]
    simp [EcsId.uindex]

theorem despawn_dead_quiet {h : List (Op × Out)} {s : Entities} (hi : Inv h s) (e : EcsId)
    (hdead : liveSpec h e = false) : Inv (h ++ [(.despawn e, .ret false)]) s := by
  apply inv_quiet hi
  · intro e'
    simp only [liveUpd]
    split
    · rename_i hh; subst hh; exact hdead.symm
    · rfl
  · rfl
  · rw [Alloc.freeSpec, List.foldl_append]; rfl

/-- The effect of each call in a state satisfying the invariant. -/
theorem spawn_cases {h : List (Op × Out)} {s : Entities} (hi : Inv h s) :
    (∃ i rest g, s.despawned = i :: rest ∧ s.generations[i]? = some (false, g) ∧ i < 2 ^ 32 ∧
      step s .spawn = (.spawned (EcsId.new (BitVec.ofNat 32 i) (g + 1)),
        ⟨s.generations.set i (true, g + 1), rest⟩)) ∨
    (s.despawned = [] ∧ s.generations.length < 2 ^ 32 ∧
      step s .spawn = (.spawned (EcsId.new (BitVec.ofNat 32 s.generations.length) 0),
        ⟨s.generations ++ [(true, 0)], []⟩)) ∨
    (s.despawned = [] ∧ ¬ s.generations.length < 2 ^ 32 ∧
      step s .spawn = (.panic .outOfIds, ⟨s.generations ++ [(true, 0)], []⟩)) := by
  unfold step Entities.spawn
  cases hd : s.despawned with
  | cons i rest =>
    obtain ⟨hlt, g, hg⟩ := (hi.freeIff i).1 (by rw [hd]; exact List.mem_cons_self)
    left
    refine ⟨i, rest, g, rfl, hg, hlt, ?_⟩
    have h' : ¬ i > 2 ^ 32 - 1 := by omega
    simp only [hg, Bool.false_eq_true, if_false, if_neg h']
  | nil =>
    right
    by_cases h32 : s.generations.length < 2 ^ 32
    · left
      have h' : ¬ s.generations.length > 2 ^ 32 - 1 := by omega
      refine ⟨rfl, h32, ?_⟩
      simp only [if_neg h']
    · right
      have h' : s.generations.length > 2 ^ 32 - 1 := by omega
      refine ⟨rfl, h32, ?_⟩
      simp only [if_pos h']

theorem despawn_cases (s : Entities) (e : EcsId) :
    (s.generations[e.uindex]? = none ∧ step s (.despawn e) = (.panic .noGeneration, s)) ∨
    (∃ a g, s.generations[e.uindex]? = some (a, g) ∧ (a && (e.gen == g)) = false ∧
      step s (.despawn e) = (.ret false, s)) ∨
    (∃ g, s.generations[e.uindex]? = some (true, g) ∧ e.gen = g ∧
      step s (.despawn e) = (.ret true, ⟨s.generations.set e.uindex (false, g), e.uindex :: s.despawned⟩)) := by
  unfold step Entities.despawn Entities.isAlive
  cases hg : s.generations[e.uindex]? with
  | none => left; simp [hg]
  | some p =>
    obtain ⟨a, g⟩ := p
    right
    cases hx : (a && (e.gen == g)) with
    | false => left; exact ⟨a, g, by simp, hx, by simp [hg, hx]⟩
    | true =>
      right
      simp only [Bool.and_eq_true, beq_iff_eq] at hx
      obtain ⟨h1, h2⟩ := hx
      subst h1
      exact ⟨g, by simp, h2, by simp [hg, h2]⟩

theorem hist_inv {h : List (Op × Out)} {s : Entities} (hh : Hist h s) : Inv h s := by
  induction hh with
  | nil => exact inv_new
  | @snoc h s op hh ih =>
    cases op with
    | spawn =>
      rcases spawn_cases ih with ⟨i, rest, g, hd, hg, h32, hs⟩ | ⟨hd, h32, hs⟩ | ⟨hd, h32, hs⟩
      · rw [hs]; exact inv_spawn_reuse ih hd hg h32 _
      · rw [hs]; exact inv_spawn_new ih hd h32 _
      · rw [hs]; exact inv_spawn_out ih hd h32 _ _
    | despawn e =>
      rcases despawn_cases s e with ⟨hg, hs⟩ | ⟨a, g, hg, hf, hs⟩ | ⟨g, hg, he, hs⟩
      · rw [hs]
        apply inv_quiet ih
        · intro e'; rfl
        · rfl
        · rw [Alloc.freeSpec, List.foldl_append]; rfl
      · rw [hs]
        apply despawn_dead_quiet ih
        rw [ih.live, hg]; exact hf
      · rw [hs]; exact inv_despawn ih e hg he

end Ellecs.Alloc
