import Verif.Proofs.Chain
/-! # `build` with a component given twice -/
namespace Ellecs

theorem UVec.pushRaw_count {v v' : UVec} (hi : UVec.Inv v) {src : Bytes} (h : v.pushRaw src = .ok v') :
    UVec.Inv v' ∧ v'.count = v.count + 1 := by
  by_cases hs : v.size ≤ src.length
  · rcases UVec.pushRaw_spec hi src hs with ⟨f, h1, _⟩ | ⟨v1, h1, h2, h3, h4, _⟩
    · rw [h1] at h; cases h
    · rw [h1] at h; injection h with h; subst h
      refine ⟨h2, ?_⟩
      rw [← UVec.length_elems, h4, List.length_append, UVec.length_elems]; rfl
  · exfalso
    have hz : ¬ v.size = 0 := by omega
    have hsz : ∀ v1 : UVec, (if v.len + v.size > v.cap then v.realloc else .ok v) = .ok v1 → v1.size = v.size := by
      intro v1 hv
      split at hv
      · unfold UVec.realloc at hv
        simp only at hv
        repeat' split at hv
        all_goals first | cases hv; done | (injection hv with hv; subst hv; rfl)
      · injection hv with hv; subst hv; rfl
    unfold UVec.pushRaw at h
    rw [if_neg hz] at h
    simp only at h
    split at h
    · cases h
    · rename_i v1 hv
      rw [if_pos (by rw [hsz v1 hv]; omega)] at h
      cases h

namespace World
namespace Dup

/-- The column of `id` in table `k` already has as many elements as the table has rows. -/
def Full (k : Nat) (w : World) (id : EcsId) : Prop :=
  ∃ a n s, w.archetypes[k]? = some a ∧ a.compLookup id = some n ∧ a.storages[n]? = some s ∧ a.entities.length ≤ UVec.count s.2

def Cols (k : Nat) (w : World) : Prop := ∀ a, w.archetypes[k]? = some a → ∀ p ∈ a.storages, UVec.Inv p.2

theorem step_spec (b : Builder) (k off : Nat) (id : EcsId) (ids : List EcsId) {w : World} (hq : Cols k w)
    {Q : Unit → World → Prop}
    (H : ¬ Full k w id → ∀ w' off', Cols k w' → Full k w' id → (∀ x, Full k w x → Full k w' x) →
      Tri (b.pushComps k off' ids) w' Q (fun _ _ => True)) :
    Tri (b.pushComps k off (id :: ids)) w Q (fun _ _ => True) := by
  rw [Builder.pushComps]
  simp only [tri_bind, tri_get, tri_liftE, tri_step]
  cases w.getEntityMeta id with
  | error f => trivial
  | ok om =>
    cases om with
    | none => trivial
    | some m =>
      simp only [unwrap]
      cases ha : w.archetypes[k]? with
      | none => trivial
      | some a =>
        simp only
        cases hl : a.compLookup id with
        | none => trivial
        | some n =>
          simp only
          cases hs : a.storages[n]? with
          | none => trivial
          | some s =>
            simp only
            cases hp : s.2.pushRaw (b.dataFrom off) with
            | error f => trivial
            | ok v =>
              simp only
              have hin := hq a ha s (List.mem_of_getElem? hs)
              obtain ⟨hv1, hv2⟩ := UVec.pushRaw_count hin hp
              have hklt := (List.getElem?_eq_some_iff.1 ha).1
              have hnlt := (List.getElem?_eq_some_iff.1 hs).1
              simp only [List.getElem?_set, if_true, hklt, hl, hnlt, UVec.lenElems_eq hv1]
              by_cases hc : v.count = a.entities.length
              · rw [if_pos hc]
                have hk' : ({ w with archetypes := w.archetypes.set k { a with storages := a.storages.set n (s.1, v) } } : World).archetypes[k]? =
                    some { a with storages := a.storages.set n (s.1, v) } := by
                  simp [hklt]
                refine H ?_ _ _ ?_ ?_ ?_
                · rintro ⟨a', n', s', e1, e2, e3, e4⟩
                  rw [ha] at e1; injection e1 with e1; subst e1
                  rw [hl] at e2; injection e2 with e2; subst e2
                  rw [hs] at e3; injection e3 with e3; subst e3
                  omega
                · intro a' ha' p hp'
                  rw [hk'] at ha'; injection ha' with ha'; subst ha'
                  rcases List.mem_or_eq_of_mem_set hp' with h1 | h1
                  · exact hq a ha p h1
                  · rw [h1]; exact hv1
                · exact ⟨_, n, (s.1, v), hk', hl, by simp [hnlt], by simp only; omega⟩
                · rintro x ⟨a', n', s', e1, e2, e3, e4⟩
                  rw [ha] at e1; injection e1 with e1; subst e1
                  by_cases hnn : n = n'
                  · subst hnn
                    rw [hs] at e3; injection e3 with e3; subst e3
                    exact ⟨_, n, (s.1, v), hk', e2, by simp [hnlt], by simp only; omega⟩
                  · exact ⟨_, n', s', hk', e2, by simp only; rw [List.getElem?_set_ne hnn]; exact e3, e4⟩
              · rw [if_neg hc]; trivial

theorem pushComps_full (b : Builder) (k : Nat) (id : EcsId) (ids : List EcsId) : ∀ (off : Nat) (w : World), Cols k w → Full k w id → id ∈ ids →
    Tri (b.pushComps k off ids) w (fun _ _ => False) (fun _ _ => True) := by
  induction ids with
  | nil => intro off w _ _ h; cases h
  | cons x ids ih =>
    intro off w hq hf hm
    refine step_spec b k off x ids hq ?_
    intro hx w' off' h1 h2 h3
    rcases List.mem_cons.1 hm with rfl | hm
    · exact absurd hf hx
    · exact ih off' w' h1 (h3 _ hf) hm

theorem pushComps_dup (b : Builder) (k : Nat) (ids : List EcsId) : ∀ (off : Nat) (w : World), Cols k w → ¬ ids.Nodup →
    Tri (b.pushComps k off ids) w (fun _ _ => False) (fun _ _ => True) := by
  induction ids with
  | nil => intro off w _ h; exact absurd List.nodup_nil h
  | cons x ids ih =>
    intro off w hq hn
    refine step_spec b k off x ids hq ?_
    intro hx w' off' h1 h2 h3
    by_cases hm : x ∈ ids
    · exact pushComps_full b k x ids off' w' h1 h2 hm
    · exact ih off' w' h1 (fun hh => hn (List.nodup_cons.2 ⟨hm, hh⟩))

end Dup

/-- `build` with a component given twice panics. -/
theorem build_dup {w : World} (h : Inv w) {b : Builder} {vals : List (EcsId × Bytes)} (hb : Packed b vals)
    (hv : ValsOk w vals) (hn : ¬ (vals.map Prod.fst).Nodup) :
    Tri b.build w (fun _ _ => False) (fun _ _ => True) := by
  unfold Builder.build
  simp only [tri_bind, tri_get, tri_liftE]
  cases w.findArchetype b.compIds with
  | error f => trivial
  | ok r =>
    cases r with
    | some k =>
      simp only [tri_bind, tri_step]
      cases ha : w.archetypes[k]? with
      | none => trivial
      | some a =>
        simp only
        have hklt := (List.getElem?_eq_some_iff.1 ha).1
        refine (Dup.pushComps_dup b k b.compIds 0 _ ?_ (by rw [hb.ids]; exact hn)).imp (fun _ _ hh => hh.elim) (fun _ _ _ => trivial)
        intro a' ha' p hp
        simp only [List.getElem?_set, if_true, hklt] at ha'
        injection ha' with ha'; subst ha'
        exact (h.col a (List.mem_of_getElem? ha) p hp).1
    | none =>
      obtain ⟨l1, l2, l3⟩ := ensureLocks_spec h b.compIds
      simp only [tri_bind, tri_modify]
      generalize hw1 : b.compIds.foldl ensureLock w = w1 at *
      have hv1 : ValsOk w1 vals := by
        intro p hp
        rw [getEntityMeta_congr l2.ent l2.metas]; exact hv p hp
      refine (createArchetype_spec l1 hb hv1).imp ?_ (fun _ _ _ => trivial)
      rintro ⟨b', a⟩ w2 ⟨_, c1, _⟩
      exact absurd c1 hn

/-- The values of valid calls are well formed and, if the calls are not distinct, name a component twice. -/
theorem dup_of_clash {w w' : World} (h : Grow w w') {as : List BAct} (hd : ¬ Distinct w as)
    {vals : List (EcsId × Bytes)} (ha : ActVals w' as vals) : ¬ (vals.map Prod.fst).Nodup := by
  induction as generalizing vals with
  | nil => exact absurd List.Pairwise.nil hd
  | cons a as ih =>
    obtain ⟨id, v, vs', rfl, h2, h3⟩ := ha
    rw [List.map_cons, List.nodup_cons]
    rintro ⟨n1, n2⟩
    rw [Distinct, List.pairwise_cons] at hd
    apply hd
    refine ⟨?_, Classical.not_not.1 (fun hn => ih hn h3 n2)⟩
    intro x hx hc
    have hgx : ∃ v', Gives w' x id v' := by
      have hex : ∀ {l : List BAct} {vs : List (EcsId × Bytes)}, ActVals w' l vs → x ∈ l → ∃ c v', Gives w' x c v' := by
        intro l
        induction l with
        | nil => intro _ _ hh; cases hh
        | cons y l ih =>
          rintro vs ⟨c, v, vs', _, q2, q3⟩ hh
          rcases List.mem_cons.1 hh with rfl | hh
          · exact ⟨c, v, q2⟩
          · exact ih q3 hh
      obtain ⟨c', v', hg⟩ := hex h3 hx
      have hnm : ∀ {a : BAct} {c d : EcsId} {v : Bytes}, Names w a c → Gives w' a d v → d = c := by
        intro a c d v n g
        cases a with
        | «with» t u =>
          have h1 := h.typ t c n
          have h2 : w'.typeMap t = some d := g.1
          rw [h1] at h2; injection h2 with h2; exact h2.symm
        | withDynamic i => exact g.1.trans (Eq.symm n)
        | withDynamicWithData i u => exact g.1.trans (Eq.symm n)
        | build => exact g.elim
      rcases hc with ⟨t, u, u', rfl, rfl⟩ | ⟨c, m1, m2⟩
      · have e1 : w'.typeMap t = some id := h2.1
        have e2 : w'.typeMap t = some c' := hg.1
        rw [e1] at e2; injection e2 with e2; subst e2
        exact ⟨v', hg⟩
      · have e1 := hnm m1 h2
        have e2 := hnm m2 hg
        subst e1; subst e2
        exact ⟨v', hg⟩
    obtain ⟨v', hg⟩ := hgx
    exact n1 (List.mem_map.2 ⟨(id, v'), (h3.mem _ _).2 ⟨x, hx, hg⟩, rfl⟩)

/-- A chain that supplies a component twice panics. -/
theorem chain_dup {w : World} (h : Inv w) (hn : w.Ready) {kind : SpawnKind} {as : List BAct}
    (hv : ∀ a ∈ as, ActValid w a) (hd : ¬ Distinct w as) :
    Tri (spawnWith kind (as ++ [.build])) w (fun _ _ => False) (fun _ _ => True) := by
  rw [spawnWith_eq, tri_bind]
  refine tri_of ?_ (fun _ _ _ => trivial)
  intro e w1 x1
  rw [tri_bind]
  refine tri_of ?_ (fun _ _ _ => trivial)
  intro b w2 x2
  obtain ⟨i2, n2, p1, p2, le, nr, _, ht, hv2⟩ := chain_start h hn x1 x2 hv
  have hcalls := callsOk_valid as i2 n2 p1.blk hv2
  have hd2 : ¬ Distinct w2 as := by
    intro hd2
    apply hd
    refine List.Pairwise.imp ?_ hd2
    intro a b hab hc
    apply hab
    rcases hc with hc | ⟨c, h1, h2⟩
    · exact Or.inl hc
    · refine Or.inr ⟨c, ?_, ?_⟩
      · cases a <;> simpa [Names, ht] using h1
      · cases b <;> simpa [Names, ht] using h2
  have hnb : .build ∉ as := fun hb => (hv _ hb).ne rfl
  rw [acts_seq, tri_bind, tri_bind]
  refine (acts_spec as i2 n2 p1.blk hcalls (Or.inr hnb)).imp ?_ (fun _ _ _ => trivial)
  rintro b1 w3 ⟨g, _, vals, v1, v2, v3⟩
  have hp := v2.packed p1
  rw [List.nil_append] at hp
  have hbd := build_dup g.inv hp v3 (dup_of_clash g hd2 v1)
  have heq : b1.acts [.build] = (b1.act .build >>= fun b => b.acts []) := rfl
  rw [heq, tri_bind]
  unfold Builder.act Builder.orDrop Tri at *
  cases hx : b1.build w3 with
  | ok b' w' => rw [hx] at hbd; exact hbd.elim
  | error f w' =>
    cases hd' : b1.drop w' <;> simp [hx, hd']

end World
end Ellecs
