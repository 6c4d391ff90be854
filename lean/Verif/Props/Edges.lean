import Verif.Proofs.DemoFacts
import Verif.Proofs.Edges
import Verif.Proofs.Effect
import Verif.Proofs.Demo
/-!
# C76: every edge between tables is searched for at most once

Whoever moves from a table to another one leaves the edge in the map of the table, edges stay there for good and are right, and an edge
in the map is followed without looking at anything but that table.
-/
namespace Ellecs.WorldSpec
open World Demo

/-- C76: after a call, every entity that is in another table than before went along an edge that is in the map and in the array of
its old table now. -/
theorem C76_learns {w w' : World} (hw : Reachable w) {call : Call} (hc : call.Ok w) (h : call.exec w = .ok () w') (hn : w'.NoFullSlot)
    {e : EcsId} {k k' : Nat} (hk : w.Sits e k) (hk' : w'.Sits e k') (hne : k ≠ k') : ∃ c, w'.Knows k c k' ∧ w'.Recent k c k' :=
  exec_learns hw.sound.inv (Reachable.ok call hw hc h hn).sound.inv hw.sound.nowrap hw.neatW h e k k' hk hk' hne

/-- C76: edges stay in the map, whatever calls are made, returning or panicking in any way. -/
theorem C76_keeps {w w' : World} (h : Since w w') {k t : Nat} {c : EcsId} (hk : w.Knows k c t) : w'.Knows k c t := h.kept.knows hk

/-- C76: an edge leads to the table with exactly the components of its table and `c`, or without `c`. -/
theorem C76_right {w : World} (hw : Reachable w) {k t : Nat} {c : EcsId} (hk : w.Knows k c t) :
    ∃ a b, w.archetypes[k]? = some a ∧ w.archetypes[t]? = some b ∧
      ((c ∉ a.compIds ∧ ∀ x, x ∈ b.compIds ↔ x ∈ a.compIds ∨ x = c) ∨ (c ∈ a.compIds ∧ ∀ x, x ∈ b.compIds ↔ x ∈ a.compIds ∧ x ≠ c)) := by
  obtain ⟨a, ha, hl⟩ := hk
  obtain ⟨l, _, _, h2⟩ := hw.sound.inv.cache a (List.mem_of_getElem? ha)
  obtain ⟨ids, h3, h4⟩ := h2 c t hl
  rw [List.getElem?_map] at h3
  cases hb : w.archetypes[t]? with
  | none => rw [hb] at h3; cases h3
  | some b =>
    rw [hb] at h3; injection h3 with h3; subst h3
    refine ⟨a, b, ha, rfl, ?_⟩
    by_cases hc : c ∈ a.compIds
    · refine Or.inr ⟨hc, fun x => (h4 x).trans ⟨?_, fun h => Or.inl h⟩⟩
      rintro (h | ⟨_, h⟩)
      · exact h
      · exact absurd hc h
    · refine Or.inl ⟨hc, fun x => (h4 x).trans ⟨?_, ?_⟩⟩
      · rintro (⟨h, _⟩ | ⟨h, _⟩)
        · exact Or.inl h
        · exact Or.inr h
      · rintro (h | h)
        · exact Or.inl ⟨h, fun hx => hc (hx ▸ h)⟩
        · exact Or.inr ⟨h, hc⟩

/-- Adding or removing `c` for an entity of table `k` leads to `t`, and this is found in table `k`: in every world that has the same table
there, whatever the other tables and the sets of tables of the components are. -/
def Follows (w : World) (k : Nat) (c : EcsId) (t : Nat) : Prop :=
  ∃ a v, w.archetypes[k]? = some a ∧ v.lookup = a.cache.lookup ∧ ∀ u : World, u.archetypes[k]? = some a →
    (c ∉ a.compIds → resolveAdd k c u = .ok t { u with archetypes := u.archetypes.set k { a with cache := v } }) ∧
    (c ∈ a.compIds → resolveRemove k c u = .ok t { u with archetypes := u.archetypes.set k { a with cache := v } })

/-- C76: an edge in the map is followed without a search. -/
theorem C76_follows {w : World} (hw : Reachable w) {k t : Nat} {c : EcsId} (hk : w.Knows k c t) : Follows w k c t := by
  obtain ⟨a, ha, hl⟩ := hk
  obtain ⟨v, hv⟩ := (hw.neatW a (List.mem_of_getElem? ha)).knows hl
  exact ⟨a, v, ha, lookupId_map hv, fun u hu => ⟨fun hc => resolveAdd_found hu hc hv, fun hc => resolveRemove_found hu hc hv⟩⟩

/-- C76: an edge in the array is followed without any change. -/
theorem C76_recent {w : World} (hw : Reachable w) {k t : Nat} {c : EcsId} (hk : w.Recent k c t) :
    ∃ a, w.archetypes[k]? = some a ∧ (c ∉ a.compIds → resolveAdd k c w = .ok t w) ∧ (c ∈ a.compIds → resolveRemove k c w = .ok t w) := by
  obtain ⟨a, l, ha, hl, hm⟩ := hk
  have hv := (hw.neatW a (List.mem_of_getElem? ha)).recent hl hm
  have hs : ({ w with archetypes := w.archetypes.set k { a with cache := a.cache } } : World) = w := by
    have : w.archetypes.set k a = w.archetypes := by
      refine List.ext_getElem? fun j => ?_
      rw [List.getElem?_set]
      by_cases hj : k = j
      · subst hj; rw [if_pos rfl, if_pos (List.getElem?_eq_some_iff.1 ha).1, ha]
      · rw [if_neg hj]
    show ({ w with archetypes := w.archetypes.set k a } : World) = w
    rw [this]
  refine ⟨a, ha, fun hc => ?_, fun hc => ?_⟩
  · have := resolveAdd_found ha hc hv; rwa [hs] at this
  · have := resolveRemove_found ha hc hv; rwa [hs] at this

/-- C76: the array of a table can be read, has at most four entries, no two for the same component, and all of them are in the map. -/
theorem C76_array {w : World} (hw : Reachable w) {k : Nat} {a : Archetype} (ha : w.archetypes[k]? = some a) :
    ∃ l, a.cache.cache.asSlice = .ok l ∧ l.length ≤ 4 ∧ (l.map (·.1)).Nodup ∧ ∀ p ∈ l, w.Knows k p.1 p.2 := by
  obtain ⟨l, h1, h2, h3⟩ := hw.neatW a (List.mem_of_getElem? ha)
  exact ⟨l, h1.asSlice, h1.1, h2, fun p hp => ⟨a, ha, h3 p hp⟩⟩

/-- C76: once an entity has gone from table `k` to table `k'`, the way is found in table `k` ever after. -/
theorem C76_once {w w' w2 : World} (hw : Reachable w) {call : Call} (hc : call.Ok w) (h : call.exec w = .ok () w') (hn : w'.NoFullSlot)
    {e : EcsId} {k k' : Nat} (hk : w.Sits e k) (hk' : w'.Sits e k') (hne : k ≠ k') (hl : Later w' w2) :
    ∃ c, Follows w2 k c k' ∧ ∃ a b, w2.archetypes[k]? = some a ∧ w2.archetypes[k']? = some b ∧
      ((c ∉ a.compIds ∧ ∀ x, x ∈ b.compIds ↔ x ∈ a.compIds ∨ x = c) ∨ (c ∈ a.compIds ∧ ∀ x, x ∈ b.compIds ↔ x ∈ a.compIds ∧ x ≠ c)) := by
  obtain ⟨c, h1, _⟩ := C76_learns hw hc h hn hk hk' hne
  have hr := Later.reachable (Reachable.ok call hw hc h hn) hl
  have hs : Since w' w2 := by
    clear hr
    induction hl with
    | refl => exact .refl _
    | ok c _ _ h1 _ ih => exact .ok c ih h1
    | panic c f _ _ h1 _ _ _ ih => exact .panic c f ih h1
  exact ⟨c, C76_follows hr (C76_keeps hs h1), C76_right hr (C76_keeps hs h1)⟩

/-! ### a case -/

/-- Five entities leave the empty table, each along its own edge. -/
def leave : List Call := [
  .spawn .plain [.build], .spawn .plain [.build], .spawn .plain [.build], .spawn .plain [.build], .spawn .plain [.build],
  .addDynamic ⟨1, 5⟩ (ent 7), .addDynamic (ent 7) ⟨1, 5⟩, .addDynamic (ent 8) (ent 9), .addDynamic (ent 9) (ent 8), .addComponent (ent 10) tA (val 4 0)]

theorem leave_run : (run leave demo).isSome = true := by decide +kernel
def left : World := (run leave demo).get leave_run
theorem left_calm : Calm left := run_calm demo_calm (Option.some_get leave_run).symm

/-- All five edges are in the map, the first one has left the array; following it puts it back. -/
example : (left.archetypes[0]?.map fun a => [ent 7, ⟨1, 5⟩, ent 9, ent 8, ent 1].map a.cache.lookup) = some [some 5, some 6, some 7, some 8, some 2] ∧
    (left.archetypes[0]?.bind fun a => a.cache.cache.asSlice.toOption) = some [(ent 1, 2), (ent 8, 8), (ent 9, 7), (⟨1, 5⟩, 6)] ∧
    ((after (addComponentDynamic (ent 2) (ent 7) left)).archetypes[0]?.bind fun a => a.cache.cache.asSlice.toOption) =
      some [(ent 7, 5), (ent 1, 2), (ent 8, 8), (ent 9, 7)] := by
  decide +kernel

/-- Entity 3 goes from table 2 to table 1, along an edge table 2 did not know before. -/
example : (demo.archetypes[2]?.map fun a => a.entities.contains (ent 3)) = some true ∧ (demo.archetypes[2]?.bind fun a => a.cache.lookup (ent 2)) = none ∧
    (Call.Ok demo (.addComponent (ent 3) tB (val 8 9))) ∧ endsOk (Call.exec (.addComponent (ent 3) tB (val 8 9)) demo) () = true ∧
    ((after (Call.exec (.addComponent (ent 3) tB (val 8 9)) demo)).archetypes[1]?.map fun a => a.entities.contains (ent 3)) = some true ∧
    ((after (Call.exec (.addComponent (ent 3) tB (val 8 9)) demo)).archetypes[2]?.bind fun a => a.cache.lookup (ent 2)) = some 1 ∧
    (after (Call.exec (.addComponent (ent 3) tB (val 8 9)) demo)).NoFullSlot :=
  ⟨by decide +kernel, by decide +kernel, (rfl : (val 8 9).length = tB.size), by decide +kernel, by decide +kernel, by decide +kernel, by decide +kernel⟩

/-- The call of the previous example and the world after it. -/
def go : Call := .addComponent (ent 3) tB (val 8 9)
def gone : World := after (go.exec demo)
theorem go_ok : go.Ok demo := (rfl : (val 8 9).length = tB.size)
theorem go_exec : go.exec demo = .ok () gone := eq_of_endsOk (by decide +kernel)
theorem gone_calm : gone.NoFullSlot := by decide +kernel
theorem gone_reachable : Reachable gone := Reachable.ok go demo_reachable go_ok go_exec gone_calm
theorem three_here : demo.Sits (ent 3) 2 := ⟨table2, table2_at, List.mem_of_getElem? three_row⟩
theorem gone_some : (gone.archetypes[1]?).isSome = true := by decide +kernel
theorem three_there : gone.Sits (ent 3) 1 :=
  ⟨(gone.archetypes[1]?).get gone_some, (Option.some_get gone_some).symm, by decide +kernel⟩
theorem gone_some2 : (gone.archetypes[2]?).isSome = true := by decide +kernel
theorem gone_knows : gone.Knows 2 (ent 2) 1 :=
  ⟨(gone.archetypes[2]?).get gone_some2, (Option.some_get gone_some2).symm, by decide +kernel⟩
theorem gone_recent : gone.Recent 2 (ent 2) 1 := by
  have h : ((gone.archetypes[2]?).get gone_some2).cache.cache.asSlice.toOption.any (fun l => l.contains (ent 2, 1)) = true := by decide +kernel
  cases hl : ((gone.archetypes[2]?).get gone_some2).cache.cache.asSlice with
  | error f => rw [hl] at h; cases h
  | ok l => rw [hl] at h; exact ⟨_, l, (Option.some_get gone_some2).symm, hl, List.contains_iff_mem.1 h⟩

example := C76_learns demo_reachable go_ok go_exec gone_calm three_here three_there (by decide)
/-- A call that panics in between does not matter: the edge is still there. -/
example : (after (Call.exec (.removeDynamic (ent 3) (ent 4)) gone)).Knows 2 (ent 2) 1 :=
  C76_keeps (.panic (.removeDynamic (ent 3) (ent 4)) _ (.refl _) (eq_of_endsWith (by decide +kernel : endsWith (Call.exec (.removeDynamic (ent 3) (ent 4)) gone) .notPresent = true)))
    gone_knows
example := C76_right gone_reachable gone_knows
example := C76_follows gone_reachable gone_knows
example := C76_recent gone_reachable gone_recent
example := C76_array demo_reachable table2_at
example := C76_once demo_reachable go_ok go_exec gone_calm three_here three_there (by decide) (.refl _)

end Ellecs.WorldSpec
