import Verif.Proofs.Rebirth
import Verif.Props.Endless
import Verif.Props.Safe
/-!
# C89: an id comes back only after all ids of its slot were despawned

`C01`–`C04` speak about the allocator alone.  Here its ids are followed through conversations with a world, panics
included.
-/
namespace Ellecs.WorldSpec
open World Demo

/-- C89: the conversations of `C57` are of this kind, and those of `C88`. -/
theorem C89_covers {w w' : World} {tr : List (Ask × Except Fault Answer)} :
    (Talk w tr w' → FreeTalk w tr w') ∧ (Endless w → LongTalk w tr w' → FreeTalk w tr w') := by
  refine ⟨fun h => ?_, fun hw h => h.free hw⟩
  induction h with
  | done w => exact .done w
  | ok h1 h2 h3 _ ih => exact .ok h1 h2 h3.type ih
  | panic h1 h2 h3 h4 h5 _ ih => exact .panic h1 h2 h3 h4 h5.type ih

/-- C89: an id that was handed out is alive. -/
theorem C89_born {w w' : World} (hw : Safe w []) {q : Ask} (hq : q.Ok w) {e : EcsId} (h : HandsOut w q e w') : w'.Alive e := by
  obtain ⟨h1, h2⟩ := h.spawn hw hq
  have hs : Aged e.idx e.gen (fun _ => False) w.entities.spawn.2 :=
    ⟨0, true, by rw [(spawned_slot h1).1]; simp, fun j hj => absurd hj (Nat.not_lt_zero j), fun hh => by cases hh⟩
  obtain ⟨k, al, k1, k2, k3⟩ := hs.moves h2
  have hal : al = true := by 
    cases al with
    | true => rfl
    | false => exact (k3 rfl).elim False.elim False.elim
  have hk : k = 0 := by
    cases k with
    | zero => rfl
    | succ k => exact (k2 k (Nat.lt_succ_self k)).elim False.elim False.elim
  subst hal hk
  exact alive_slot.2 (by rw [k1]; simp)

/-- C89: an id that is alive stays alive unless it is despawned. -/
theorem C89_stays {w w' : World} (hw : Safe w []) {e : EcsId} (he : w.Alive e) {tr : List (Ask × Except Fault Answer)} (h : FreeTalk w tr w')
    (hd : ¬ Despawned tr e) : w'.Alive e := by
  have hs : Aged e.idx e.gen (fun _ => False) w.entities :=
    ⟨0, true, by rw [alive_slot.1 he]; simp, fun j hj => absurd hj (Nat.not_lt_zero j), fun hh => by cases hh⟩
  obtain ⟨k, al, k1, k2, k3⟩ := h.track (Q := Aged e.idx e.gen) (fun hm h => h.moves hm) hw hs
  have h0 : k = 0 := by
    cases k with
    | zero => rfl
    | succ k =>
      have := (k2 0 (Nat.succ_pos k)).resolve_left id
      simp only [BitVec.add_zero] at this
      exact absurd this hd
  subst h0
  have hal : al = true := by
    cases al with
    | true => rfl
    | false =>
      have := (k3 rfl).resolve_left id
      simp only [BitVec.add_zero] at this
      exact absurd this hd
  subst hal
  exact alive_slot.2 (by rw [k1]; simp)

/-- C89: so an id is handed out again only after it and every other id of its slot were despawned. -/
theorem C89_again {w w' w'' : World} (hw : Safe w []) {e : EcsId} (he : w.Alive e) {tr : List (Ask × Except Fault Answer)} (h : FreeTalk w tr w')
    {q : Ask} (hq : q.Ok w') (hh : HandsOut w' q e w'') : (∀ g, Despawned tr ⟨g, e.idx⟩) ∧ 2 ^ 33 - 1 ≤ tr.length := by
  have hs : Aged e.idx e.gen (fun _ => False) w.entities :=
    ⟨0, true, by rw [alive_slot.1 he]; simp, fun j hj => absurd hj (Nat.not_lt_zero j), fun hh => by cases hh⟩
  have hc : Within e.idx e.gen 0 0 w.entities := ⟨0, true, by rw [alive_slot.1 he]; simp, Nat.le_refl 0, Nat.le_refl 0⟩
  obtain ⟨k, al, k1, k2, k3⟩ := h.track (Q := Aged e.idx e.gen) (fun hm h => h.moves hm) hw hs
  obtain ⟨k', al', c1, _, c2⟩ := h.within hw hc
  rcases (spawned_slot (hh.spawn (h.safe hw) hq).1).2 with hn | hn
  · rw [k1] at hn; cases hn
  constructor
  · intro g
    rw [k1] at hn
    injection hn with hn
    injection hn with ha hg
    have hk := minus_one hg
    have key : ∀ j, j ≤ k → Despawned tr ⟨e.gen + BitVec.ofNat 32 j, e.idx⟩ := by
      intro j hj
      rcases Nat.lt_or_eq_of_le hj with hj | rfl
      · exact (k2 j hj).resolve_left id
      · exact (k3 ha).resolve_left id
    have := key (g - e.gen).toNat (by have := (g - e.gen).isLt; omega)
    rw [gen_offset] at this
    exact this
  · rw [c1] at hn
    injection hn with hn
    injection hn with ha hg
    have hk := minus_one hg
    subst ha
    unfold halves at c2
    simp only [Bool.false_eq_true, if_false] at c2
    omega

/-- C89: an id that was despawned is alive again only after every other id of its slot was despawned, too. -/
theorem C89_reborn {w w1 w' : World} (hw : Safe w []) {e : EcsId} (hd : Ask.exec (.despawn e) w = .ok (.bool true) w1) (hn : w1.NoFullType)
    {tr : List (Ask × Except Fault Answer)} (h : FreeTalk w1 tr w') (he : w'.Alive e) :
    (∀ g, g ≠ e.gen → Despawned tr ⟨g, e.idx⟩) ∧ 2 ^ 33 - 1 ≤ tr.length := by
  have hw1 := (ask_safe hw (q := .despawn e) trivial).1 _ _ hd hn
  have hfree : w1.entities.generations[e.idx.toNat]? = some (false, e.gen) := freed_slot hw hd
  have hr : Rested e.idx e.gen (fun _ => False) w1.entities := Or.inl hfree
  have hc : Within e.idx e.gen 1 1 w1.entities := ⟨0, false, by rw [hfree]; simp, Nat.le_refl 1, Nat.le_refl 1⟩
  have hal := alive_slot.1 he
  have round : ∀ {k : Nat}, e.gen + 1 + BitVec.ofNat 32 k = e.gen → 2 ^ 32 - 1 ≤ k := fun {k} hk =>
    minus_one (g := e.gen + 1) (by rw [hk, BitVec.add_sub_cancel])
  constructor
  · intro g hg
    rcases h.track (Q := Rested e.idx e.gen) (fun hm h => Rested.moves hm h) hw1 hr with h1 | ⟨k, al, k1, k2, k3⟩
    · rw [hal] at h1; cases h1
    rw [hal] at k1
    injection k1 with k1
    injection k1 with _ hk
    have hk := round hk.symm
    have hne : (g - (e.gen + 1)).toNat ≠ 2 ^ 32 - 1 := by
      intro hh
      apply hg
      have := gen_offset g (e.gen + 1)
      rw [hh, BitVec.add_assoc] at this
      rw [← this]
      have h0 : (1 : BitVec 32) + BitVec.ofNat 32 (2 ^ 32 - 1) = 0 := by decide +kernel
      rw [h0]; simp
    have := (k2 (g - (e.gen + 1)).toNat (by have := (g - (e.gen + 1)).isLt; omega)).resolve_left id
    rw [gen_offset] at this
    exact this
  · obtain ⟨k, al, c1, c0, c2⟩ := h.within hw1 hc
    rw [hal] at c1
    injection c1 with c1
    injection c1 with ha hk
    subst ha
    unfold halves at c0 c2
    simp only [if_true] at c0 c2
    have h3 : (BitVec.ofNat 32 k) = 0 := by
      have := congrArg (fun x => x - e.gen) hk
      simp only [BitVec.add_comm e.gen, BitVec.add_sub_cancel, BitVec.sub_self] at this
      exact this.symm
    have h4 := congrArg BitVec.toNat h3
    rw [BitVec.toNat_ofNat] at h4
    have h5 : (0 : BitVec 32).toNat = 0 := rfl
    rw [h5] at h4
    omega

/-- C89: so within `2^33 - 2` questions it stays dead. -/
theorem C89_dead {w w1 w' : World} (hw : Safe w []) {e : EcsId} (hd : Ask.exec (.despawn e) w = .ok (.bool true) w1) (hn : w1.NoFullType)
    {tr : List (Ask × Except Fault Answer)} (h : FreeTalk w1 tr w') (hl : tr.length < 2 ^ 33 - 1) : w'.isAlive e = .ok false := by
  have hw1 := (ask_safe hw (q := .despawn e) trivial).1 _ _ hd hn
  rcases Entities.isAlive_cases w'.entities e with ⟨_, h1⟩ | ⟨h1, _⟩ | ⟨h1, _⟩
  · exfalso
    have hc : Within e.idx e.gen 1 1 w1.entities := ⟨0, false, by rw [freed_slot hw hd]; simp, Nat.le_refl 1, Nat.le_refl 1⟩
    obtain ⟨k, al, c1, _⟩ := h.within hw1 hc
    have := (List.getElem?_eq_some_iff.1 c1).1
    unfold EcsId.uindex at h1
    omega
  · exact h1
  · have := (C89_reborn hw hd hn h h1).2
    omega

/-- C89: the id of a type is the id of that type for ever, and it is not handed out again. -/
theorem C89_types {w w' : World} (hw : Safe w []) {t : Ty} {id : EcsId} (ht : w.typeMap t = some id) {tr : List (Ask × Except Fault Answer)}
    (h : FreeTalk w tr w') : w'.typeMap t = some id ∧ ∀ (q : Ask) (e : EcsId) (w'' : World), q.Ok w' → HandsOut w' q e w'' → e ≠ id := by
  have ht' := h.keeps hw ht
  refine ⟨ht', fun q e w'' hq hh hid => ?_⟩
  subst hid
  have hs := (h.safe hw).inv
  obtain ⟨a, g, h1, h2⟩ := hs.inv.type.known t e ht'
  unfold EcsId.uindex at h1
  rcases (spawned_slot (hh.spawn (h.safe hw) hq).1).2 with hn | hn
  · rw [h1] at hn; cases hn
  · rw [h1] at hn
    cases hn
    have h0 : e.gen = 0 := by
      apply BitVec.eq_of_toNat_eq
      have h3 : (e.gen - 1).toNat = (e.gen.toNat + (2 ^ 32 - 1)) % 2 ^ 32 := by
        rw [BitVec.toNat_sub, Nat.add_comm]; rfl
      have h4 : (0 : BitVec 32).toNat = 0 := rfl
      rw [h3] at h2
      rw [h4]
      have := e.gen.isLt
      omega
    refine hs.ready t e ht' ?_
    have h5 : (0 : BitVec 32) - 1 = BitVec.allOnes 32 := by decide +kernel
    unfold Entities.Worn EcsId.uindex
    rw [h1, h0, h5]

/-- C89 for a program that starts with a new world: between two answers with the same id. -/
theorem C89_program {w : World} {pre mid post : List (Ask × Except Fault Answer)} {kind kind' : SpawnKind} {acts acts' : List BAct} {e : EcsId}
    (h : FreeTalk World.new (pre ++ (.spawn kind acts, .ok (.id e)) :: (mid ++ (.spawn kind' acts', .ok (.id e)) :: post)) w) :
    (∀ g, Despawned mid ⟨g, e.idx⟩) ∧ 2 ^ 33 - 1 ≤ mid.length := by
  obtain ⟨u, h1, h2⟩ := h.split
  have hu := h1.safe .new
  cases h2 with
  | @ok _ u1 _ _ _ _ k1 k2 k3 k4 =>
    obtain ⟨v, h3, h4⟩ := k4.split
    have hu1 := (ask_safe hu k1).1 _ _ k2 k3
    cases h4 with
    | ok l1 l2 l3 l4 => exact C89_again hu1 (C89_born hu k1 ⟨k2, Or.inl ⟨_, _, rfl⟩⟩) h3 l1 ⟨l2, Or.inl ⟨_, _, rfl⟩⟩

/-- `n` recyclings of slot 0. -/
theorem round_husk (n : Nat) : ∃ xs, xs.length = 2 * n ∧ LongTalk (husk (fun _ => none) 0) xs (husk (fun _ => none) (BitVec.ofNat 32 n)) := by
  induction n with
  | zero => exact ⟨[], rfl, .done _⟩
  | succ n ih =>
    obtain ⟨xs, hl, ih⟩ := ih
    rw [← ofNat_succ]
    exact ⟨_, by simp only [List.length_append, hl]; exact rfl, ih.append (.ok (q := .spawn .plain [.build]) (chainOk_build _ _) (fun _ _ h => by cases h) (ask_spawn_husk _)
      (.ok (q := .despawn _) trivial (fun _ _ h => by cases h) (ask_despawn_full _) (.done _)))⟩

/-- C89: the bounds are attained. -/
theorem C89_sharp : ∃ (xs : List (Ask × Except Fault Answer)) (w : World), xs.length + 1 = 2 ^ 33 - 1 ∧
    LongTalk World.new ((.spawn .plain [.build], .ok (.id ⟨0, 0⟩)) :: (.despawn ⟨0, 0⟩, .ok (.bool true)) ::
      (xs ++ [(.spawn .plain [.build], .ok (.id ⟨0, 0⟩))])) w ∧ w.Alive ⟨0, 0⟩ := by
  obtain ⟨xs, hl, h⟩ := round_husk (2 ^ 32 - 1)
  have hs := ask_spawn_husk last
  rw [last_succ] at hs
  refine ⟨xs, full (fun _ => none) 0 .unit, by omega, ?_, rfl⟩
  exact .ok (w1 := full (fun _ => none) 0 .unit) (chainOk_valid (as := []) SafeInv.new.inv SafeInv.new.ready (by simp) (by decide +kernel))
    (fun _ _ h => by cases h) rfl (.ok trivial (fun _ _ h => by cases h) (ask_despawn_full 0)
      (h.append (.ok (chainOk_build _ _) (fun _ _ h => by cases h) hs (.done _))))

/-! ## cases -/

/-- The program of `C89_sharp` meets the hypotheses of `C89_program`, `C89_again` and `C89_reborn`. -/
example : ∃ (mid : List (Ask × Except Fault Answer)) (w : World),
    FreeTalk World.new ([] ++ (.spawn .plain [.build], .ok (.id ⟨0, 0⟩)) :: (mid ++ (.spawn .plain [.build], .ok (.id ⟨0, 0⟩)) :: [])) w ∧
    mid.length = 2 ^ 33 - 1 ∧ ∀ g, Despawned mid ⟨g, 0⟩ := by
  obtain ⟨xs, w, hl, h, _⟩ := C89_sharp
  have hf := C89_covers.2 .new h
  have := C89_program (pre := []) (mid := (.despawn ⟨0, 0⟩, .ok (.bool true)) :: xs) (post := []) hf
  exact ⟨(.despawn ⟨0, 0⟩, .ok (.bool true)) :: xs, w, hf, hl, this.1⟩

/-- An id that is alive again, by the shortest way. -/
example : ∃ (w w1 w' : World) (tr : List (Ask × Except Fault Answer)), Safe w [] ∧ Ask.exec (.despawn ⟨0, 0⟩) w = .ok (.bool true) w1 ∧ FreeTalk w1 tr w' ∧
    w'.Alive ⟨0, 0⟩ ∧ tr.length = 2 ^ 33 - 1 ∧ ∀ g, g ≠ 0 → Despawned tr ⟨g, 0⟩ := by
  obtain ⟨xs, w', hl, h, ha⟩ := C89_sharp
  cases h with
  | @ok _ w _ _ _ _ h1 h2 h3 h4 =>
    cases h4 with
    | @ok _ w1 _ _ _ _ k1 k2 k3 k4 =>
      have e1 := (ask_endless .new h1 h2).1 _ _ h3
      have e2 := (ask_endless e1 k1 k2).1 _ _ k3
      have hf := C89_covers.2 e2 k4
      have hs := e1.lasting.both.1
      exact ⟨w, w1, w', _, hs, k3, hf, ha, by simpa using hl, (C89_reborn hs k3 e2.inv.ready hf ha).1⟩

/-- An entity of the demo is despawned; despawning a component panics; another entity is spawned. -/
def culled : World := after (Ask.exec (.despawn (ent 0)) demo)
def denied : World := after (Ask.exec (.despawn (ent 1)) culled)
def renewAsk : Ask := .spawn .plain [.with tA (val 4 9), .build]
def renewed : World := after (renewAsk.exec denied)
def renewTrace : List (Ask × Except Fault Answer) := [(.despawn (ent 1), .error .despawnTodo), (renewAsk, .ok (.id ⟨1, 0⟩))]

theorem culled_made : Ask.exec (.despawn (ent 0)) demo = .ok (.bool true) culled := eq_of_endsOk (by decide +kernel)
theorem demo_safe : Safe demo [] := C61_covers demo_reachable
theorem culled_full : culled.NoFullType := NoFullSlot.type (by decide +kernel)
theorem culled_safe : Safe culled [] := (ask_safe demo_safe (q := .despawn (ent 0)) trivial).1 _ _ culled_made culled_full
theorem denied_made : Ask.exec (.despawn (ent 1)) culled = .error .despawnTodo denied := eq_of_endsWith (by decide +kernel)
theorem denied_full : denied.NoFullType := NoFullSlot.type (by decide +kernel)
theorem denied_safe : Safe denied [] :=
  (ask_safe culled_safe (q := .despawn (ent 1)) trivial).2 _ _ denied_made (by rintro (h | h | h) <;> cases h) (by simp) denied_full
theorem renewed_ok : renewAsk.Ok denied :=
  chainOk_valid (as := [.with tA (val 4 9)]) denied_safe.inv.inv denied_safe.inv.ready (by decide +kernel) (by decide +kernel)
theorem renewed_made : renewAsk.exec denied = .ok (.id ⟨1, 0⟩) renewed := eq_of_endsOk (by decide +kernel)
theorem renewed_full : renewed.NoFullType := NoFullSlot.type (by decide +kernel)

theorem renewed_talk : FreeTalk culled renewTrace renewed :=
  .panic (q := .despawn (ent 1)) trivial denied_made (by rintro ((h | h | h) | h) <;> cases h) (by simp) denied_full
    (.ok renewed_ok renewed_made renewed_full (.done _))

example : renewed.isAlive (ent 0) = .ok false := C89_dead demo_safe culled_made culled_full renewed_talk (by decide +kernel)
example : culled.Alive (ent 3) ∧ ¬ Despawned renewTrace (ent 3) ∧ renewed.Alive (ent 3) := by
  have h1 : culled.Alive (ent 3) := by decide +kernel
  have h2 : ¬ Despawned renewTrace (ent 3) := by
    rintro ⟨p, hp, h | h⟩ <;> subst h <;> revert hp <;> simp [renewTrace, renewAsk]
  exact ⟨h1, h2, C89_stays culled_safe h1 renewed_talk h2⟩
example : renewed.Alive ⟨1, 0⟩ := C89_born denied_safe renewed_ok ⟨renewed_made, Or.inl ⟨_, _, rfl⟩⟩
example : renewed.typeMap tA = some (ent 1) :=
  (C89_types culled_safe (t := tA) (id := ent 1) (by decide +kernel) renewed_talk).1

end Ellecs.WorldSpec
