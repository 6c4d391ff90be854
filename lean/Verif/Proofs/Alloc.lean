import Verif.Proofs.Entities
import Verif.Spec.World
/-! # The id allocator, state by state -/
namespace Ellecs
namespace Entities

/-- The despawned stack lists exactly the free slots that fit an index, once. -/
structure Wf (s : Entities) : Prop where
  free : s.despawned.Nodup
  freeIff : ∀ i, i ∈ s.despawned ↔ i < 2 ^ 32 ∧ ∃ g, s.generations[i]? = some (false, g)

/-- `e` is the current, live user of its slot. -/
def Live (s : Entities) (e : EcsId) : Prop := s.generations[e.uindex]? = some (true, e.gen)

/-- No free slot is at its last generation: handing it out again would start over at generation 0. -/
def NoWrap (s : Entities) : Prop := ∀ p ∈ s.generations, p.1 = false → p.2 ≠ BitVec.allOnes 32

/-- Slot `i` is free and at its last generation. -/
def Worn (s : Entities) (i : Nat) : Prop := s.generations[i]? = some (false, BitVec.allOnes 32)

/-- `e` may have been handed out, and its slot will not start over at generation 0 when it is handed out next. -/
def Kept (s : Entities) (e : EcsId) : Prop := s.Known e ∧ ¬ s.Worn e.uindex

theorem NoWrap.not_worn {s : Entities} (h : s.NoWrap) (i : Nat) : ¬ s.Worn i :=
  fun hw => h _ (List.mem_of_getElem? hw) rfl rfl

theorem Known.kept {s : Entities} {e : EcsId} (h : s.Known e) (hn : s.NoWrap) : s.Kept e := ⟨h, hn.not_worn _⟩

theorem wf_new : Wf new := ⟨List.nodup_nil, by intro i; simp [new]⟩

theorem isAlive_iff {s : Entities} {e : EcsId} : s.isAlive e = .ok true ↔ s.Live e := by
  unfold isAlive Live
  cases h : s.generations[e.uindex]? with
  | none => simp
  | some p =>
    obtain ⟨a, g⟩ := p
    simp only [Except.ok.injEq, Bool.and_eq_true, beq_iff_eq, Option.some.injEq, Prod.mk.injEq]
    exact and_congr_right (fun _ => eq_comm)

theorem isAlive_live {s : Entities} {e : EcsId} (h : s.Live e) : s.isAlive e = .ok true := isAlive_iff.2 h

theorem isAlive_cases (s : Entities) (e : EcsId) :
    (s.isAlive e = .error .noGeneration ∧ s.generations.length ≤ e.uindex) ∨
    (s.isAlive e = .ok false ∧ ¬ s.Live e ∧ e.uindex < s.generations.length) ∨
    (s.isAlive e = .ok true ∧ s.Live e) := by
  unfold isAlive Live
  cases h : s.generations[e.uindex]? with
  | none => left; exact ⟨rfl, by simpa using h⟩
  | some p =>
    obtain ⟨a, g⟩ := p
    right
    have hlt := (List.getElem?_eq_some_iff.1 h).1
    cases hb : (a && e.gen == g) with
    | false =>
      left
      refine ⟨by simp only [hb], ?_, hlt⟩
      rintro h'
      injection h' with h'; injection h' with h1 h2
      subst h1; subst h2; simp at hb
    | true =>
      right
      simp only [Bool.and_eq_true, beq_iff_eq] at hb
      obtain ⟨h1, h2⟩ := hb
      subst h1; subst h2
      simp

theorem Live.lt {s : Entities} {e : EcsId} (h : s.Live e) : e.uindex < s.generations.length :=
  (List.getElem?_eq_some_iff.1 h).1

theorem Live.known {s : Entities} {e : EcsId} (h : s.Live e) : s.Known e := ⟨_, _, h, Nat.le_refl _⟩

theorem Live.kept {s : Entities} {e : EcsId} (h : s.Live e) : s.Kept e := by
  refine ⟨h.known, fun hw => ?_⟩
  unfold Live at h
  unfold Worn at hw
  rw [hw] at h
  simp at h

theorem eq_of_uindex {e e' : EcsId} (h : e.uindex = e'.uindex) (hg : e.gen = e'.gen) : e = e' := by
  cases e; cases e'
  simp only [EcsId.mk.injEq]
  exact ⟨hg, BitVec.eq_of_toNat_eq h⟩

theorem Live.uniq {s : Entities} {e e' : EcsId} (h : s.Live e) (h' : s.Live e') (hu : e.uindex = e'.uindex) :
    e = e' := by
  unfold Live at h h'
  rw [← hu, h] at h'
  injection h' with h'; injection h' with _ h'
  exact eq_of_uindex hu h'

/-- What a call of `spawn` does. -/
theorem spawn_spec {s : Entities} (hw : Wf s) :
    (∃ s', s.spawn = (.error .outOfIds, s') ∧ Wf s' ∧ (∀ x, s'.Live x ↔ s.Live x) ∧
      (∀ x, s.Kept x → s'.Kept x) ∧ (s.NoWrap → s'.NoWrap) ∧ s.generations.length ≤ s'.generations.length ∧
      2 ^ 32 ≤ s.generations.length) ∨
    (∃ e s', s.spawn = (.ok e, s') ∧ Wf s' ∧ (∀ x, s'.Live x ↔ s.Live x ∨ x = e) ∧
      (∀ x, s.Live x → x.uindex ≠ e.uindex) ∧ ((∀ x, s.Kept x → s'.Kept x ∧ x ≠ e) ∧ (s.NoWrap → s'.NoWrap)) ∧
      s.generations.length ≤ s'.generations.length) := by
  unfold spawn
  cases hd : s.despawned with
  | cons i rest =>
    obtain ⟨hlt, g, hg⟩ := (hw.freeIff i).1 (by rw [hd]; exact List.mem_cons_self)
    have hlen := (List.getElem?_eq_some_iff.1 hg).1
    right
    have h' : ¬ i > 2 ^ 32 - 1 := by omega
    simp only [hg, Bool.false_eq_true, if_false, if_neg h']
    have hu : (EcsId.new (BitVec.ofNat 32 i) (g + 1)).uindex = i := Alloc.ofNat_toNat_lt hlt
    refine ⟨_, _, rfl, ⟨?_, ?_⟩, ?_, ?_, ?_, ?_⟩
    · have := hw.free; rw [hd] at this; exact (List.nodup_cons.1 this).2
    · intro j
      have hj := hw.freeIff j
      have hn := hw.free; rw [hd] at hn hj
      have hnot := (List.nodup_cons.1 hn).1
      simp only [List.getElem?_set]
      by_cases hij : i = j
      · subst hij; simp [hnot, hlen]
      · simp only [if_neg hij]
        rw [← hj]; simp [Ne.symm hij]
    · intro x
      unfold Live
      simp only [List.getElem?_set]
      by_cases hx : i = x.uindex
      · rw [if_pos hx, if_pos hlen, ← hx, hg]
        constructor
        · intro h; right
          injection h with h; injection h with _ h
          exact eq_of_uindex (by rw [hu, hx]) h.symm
        · rintro (h | h)
          · simp at h
          · rw [h]
      · rw [if_neg hx]
        constructor
        · exact Or.inl
        · rintro (h | h)
          · exact h
          · exact absurd (by rw [h, hu]) hx
    · intro x hx he
      rw [hu] at he
      unfold Live at hx
      rw [he, hg] at hx; simp at hx
    · refine ⟨?_, ?_⟩
      · rintro x ⟨⟨a, gx, hx, hle⟩, hwn⟩
        by_cases hxi : i = x.uindex
        · rw [← hxi, hg] at hx
          injection hx with hx; injection hx with _ hx; subst hx
          have hg' : g ≠ BitVec.allOnes 32 := by
            rintro rfl; exact hwn (by unfold Worn; rw [← hxi, hg])
          have hg1 : (g + 1).toNat = g.toNat + 1 := by
            have h1 : g.toNat ≠ 2 ^ 32 - 1 := by
              intro hh; apply hg'; apply BitVec.eq_of_toNat_eq; rw [hh]; rfl
            have := g.isLt
            rw [BitVec.toNat_add]; simp; omega
          refine ⟨⟨⟨true, g + 1, by simp only [List.getElem?_set, if_pos hxi, if_pos hlen], by omega⟩, ?_⟩, ?_⟩
          · unfold Worn
            simp only [List.getElem?_set, if_pos hxi, if_pos hlen]
            simp
          · rintro rfl
            have : (EcsId.new (BitVec.ofNat 32 i) (g + 1)).gen = g + 1 := rfl
            rw [this] at hle; omega
        · refine ⟨⟨⟨a, gx, by simp only [List.getElem?_set, if_neg hxi, hx], hle⟩, ?_⟩, ?_⟩
          · unfold Worn
            simp only [List.getElem?_set, if_neg hxi]
            exact hwn
          · rintro rfl; exact hxi hu.symm
      · intro hnw p hp hpf
        rcases List.mem_or_eq_of_mem_set hp with h | h
        · exact hnw p h hpf
        · subst h; cases hpf
    · simp
  | nil =>
    have hL : ∀ j : Nat, (s.generations ++ [(true, (0 : BitVec 32))])[j]? =
        if j = s.generations.length then some (true, 0) else s.generations[j]? := by
      intro j
      by_cases hj : j = s.generations.length
      · subst hj; simp
      · rw [if_neg hj, List.getElem?_append]
        split
        · rfl
        · rw [List.getElem?_eq_none (by simp; omega), List.getElem?_eq_none (by omega)]
    have hwf : Wf ⟨s.generations ++ [(true, 0)], []⟩ := by
      refine ⟨List.nodup_nil, ?_⟩
      intro j
      have hj := hw.freeIff j
      rw [hd] at hj
      simp only [hL]
      by_cases hij : j = s.generations.length
      · simp [hij]
      · simp only [if_neg hij]; exact hj
    have hkn : ∀ x, s.Kept x → Kept ⟨s.generations ++ [(true, 0)], []⟩ x := by
      rintro x ⟨⟨a, g, hx, hle⟩, hwn⟩
      have := (List.getElem?_eq_some_iff.1 hx).1
      refine ⟨⟨a, g, ?_, hle⟩, ?_⟩
      · simp only [hL]; rw [if_neg (by omega), hx]
      · unfold Worn
        simp only [hL]; rw [if_neg (by omega)]
        exact hwn
    have hnw' : s.NoWrap → NoWrap ⟨s.generations ++ [(true, 0)], []⟩ := by
      intro hnw p hp hpf
      rcases List.mem_append.1 hp with h | h
      · exact hnw p h hpf
      · simp at h; subst h; cases hpf
    by_cases h32 : s.generations.length < 2 ^ 32
    · right
      have h' : ¬ s.generations.length > 2 ^ 32 - 1 := by omega
      simp only [if_neg h']
      have hu : (EcsId.new (BitVec.ofNat 32 s.generations.length) 0).uindex = s.generations.length :=
        Alloc.ofNat_toNat_lt h32
      refine ⟨_, _, rfl, hwf, ?_, ?_, ?_, by simp⟩
      · intro x
        unfold Live
        simp only [hL]
        by_cases hx : x.uindex = s.generations.length
        · rw [if_pos hx]
          constructor
          · intro h; right
            injection h with h; injection h with _ h
            exact eq_of_uindex (by rw [hu, hx]) h.symm
          · rintro (h | h)
            · have := (List.getElem?_eq_some_iff.1 h).1; omega
            · rw [h]
        · rw [if_neg hx]
          constructor
          · exact Or.inl
          · rintro (h | h)
            · exact h
            · exact absurd (by rw [h, hu]) hx
      · intro x hx he
        have := hx.lt; omega
      · refine ⟨fun x hx => ⟨hkn x hx, ?_⟩, hnw'⟩
        rintro rfl
        obtain ⟨⟨a, g, hx, _⟩, _⟩ := hx
        have := (List.getElem?_eq_some_iff.1 hx).1
        omega
    · left
      have h' : s.generations.length > 2 ^ 32 - 1 := by omega
      simp only [if_pos h']
      refine ⟨_, rfl, hwf, ?_, hkn, hnw', by simp, by omega⟩
      intro x
      unfold Live
      have := Alloc.uindex_lt x
      simp only [hL]; rw [if_neg (by omega)]

/-- What `despawn` of a live entity does. -/
theorem despawn_spec {s : Entities} (hw : Wf s) {e : EcsId} (he : s.Live e) :
    ∃ s', s.despawn e = .ok (true, s') ∧ Wf s' ∧ (∀ x, s'.Live x ↔ s.Live x ∧ x ≠ e) ∧
      (∀ x, s.Known x → s'.Known x) ∧ s'.generations.length = s.generations.length := by
  have hlen := he.lt
  unfold despawn
  rw [isAlive_live he]
  have hg := he
  unfold Live at hg
  simp only [hg]
  refine ⟨_, rfl, ⟨?_, ?_⟩, ?_, ?_, by simp⟩
  · refine List.nodup_cons.2 ⟨?_, hw.free⟩
    intro hm
    obtain ⟨_, g', hg'⟩ := (hw.freeIff _).1 hm
    rw [hg] at hg'; simp at hg'
  · intro j
    have hj := hw.freeIff j
    simp only [List.getElem?_set, List.mem_cons]
    by_cases hij : e.uindex = j
    · simp only [hij, if_true, true_or]
      rw [← hij]; exact ⟨fun _ => ⟨Alloc.uindex_lt e, e.gen, by simp [hlen]⟩, fun _ => trivial⟩
    · rw [if_neg hij, ← hj]
      constructor
      · rintro (h | h)
        · exact absurd h.symm hij
        · exact h
      · exact Or.inr
  · intro x
    unfold Live
    simp only [List.getElem?_set]
    by_cases hx : e.uindex = x.uindex
    · rw [if_pos hx, if_pos hlen, ← hx, hg]
      constructor
      · intro h; simp at h
      · rintro ⟨h, hne⟩
        injection h with h; injection h with _ h
        exact absurd (eq_of_uindex hx h).symm hne
    · rw [if_neg hx]
      constructor
      · intro h; exact ⟨h, fun hh => hx (by rw [hh])⟩
      · exact And.left
  · rintro x ⟨a, g, hx, hle⟩
    unfold Known
    simp only [List.getElem?_set]
    by_cases hxe : e.uindex = x.uindex
    · rw [← hxe, hg] at hx
      injection hx with hx; injection hx with _ hx; subst hx
      exact ⟨false, e.gen, by rw [if_pos hxe, if_pos hlen], hle⟩
    · exact ⟨a, g, by rw [if_neg hxe, hx], hle⟩

end Entities
end Ellecs
