import Verif.Proofs.DemoFacts
import Verif.Proofs.TableTrace
import Verif.Proofs.Demo
/-!
# C60: tables, columns and locks are never removed or renumbered

The code stores positions of tables in the metadata of entities, in the caches of other tables and in bitsets, and
positions of columns and locks in maps.  All of them rely on C60.
-/
namespace Ellecs.WorldSpec
open World Demo

/-- C60: at any later time every table is still at its position and has the same components, each with its column at
the same position and with the same layout and drop function.  The block of a column only grows, by doubling, and is
replaced only when it grows. -/
theorem C60_tables_stay {w w' : World} (h : Later w w') {k : Nat} {a : Archetype} (ha : w.archetypes[k]? = some a) :
    ∃ a', w'.archetypes[k]? = some a' ∧ a'.compIds = a.compIds ∧ a'.compLookup = a.compLookup ∧ a'.storages.length = a.storages.length ∧
      ∀ (j : Nat) (c : EcsId) (v : UVec), a.storages[j]? = some (c, v) → ∃ v', a'.storages[j]? = some (c, v') ∧ v'.info = v.info ∧ v.cap ≤ v'.cap ∧
        (v'.cap = v.cap ∨ ∃ n, v'.cap = (if v.cap = 0 then 4 * v.size else v.cap) * 2 ^ n) ∧ (v'.cap = v.cap → v'.data = v.data) := by
  have hs : TablesStay w w' := by
    clear ha
    induction h with
    | refl => exact .refl _
    | ok c _ _ h2 _ ih => exact ih.trans ((exec_tables c _).ok h2)
    | panic c f _ _ h2 _ _ _ ih => exact ih.trans ((exec_tables c _).error h2)
  obtain ⟨a', h1, h2⟩ := hs.tab k a ha
  refine ⟨a', h1, h2.ids, h2.look, h2.len, ?_⟩
  intro j c v hj
  have hlt := (List.getElem?_eq_some_iff.1 hj).1
  have hj' : a'.storages[j]? = some (a'.storages[j]'(by rw [h2.len]; exact hlt)) := List.getElem?_eq_getElem _
  have h3 := h2.col j _ _ hj hj'
  refine ⟨(a'.storages[j]'(by rw [h2.len]; exact hlt)).2, ?_, h3.info, h3.cap, h3.grow, h3.block⟩
  rw [hj']
  exact congrArg some (Prod.ext h3.id rfl)

/-- C60: the capacity of every column is 0 or four elements doubled some times. -/
theorem C60_capacities {w : World} (hw : Reachable w) {a : Archetype} (ha : a ∈ w.archetypes) {p : EcsId × UVec} (hp : p ∈ a.storages) :
    p.2.cap = 0 ∨ ∃ n, p.2.cap = 4 * p.2.size * 2 ^ n := by
  have hs : TablesStay World.new w := by
    clear ha
    induction hw with
    | new => exact .refl _
    | ok c _ _ h2 _ ih => exact ih.trans ((exec_tables c _).ok h2)
    | panic c f _ _ h2 _ _ _ ih => exact ih.trans ((exec_tables c _).error h2)
  obtain ⟨k, hk⟩ := List.mem_iff_getElem?.1 ha
  exact hs.new k a (Nat.zero_le _) hk p hp

/-- C60: a component keeps its lock. -/
theorem C60_locks_stay {w w' : World} (h : Later w w') {c : EcsId} {i : Nat} (hc : w.lockLookup c = some i) : w'.lockLookup c = some i := by
  have key : ∀ (d : Call) (u : World), Tri d.exec u (fun _ u' => u.lockLookup c = some i → u'.lockLookup c = some i)
      (fun _ u' => u.lockLookup c = some i → u'.lockLookup c = some i) := by
    intro d u
    by_cases hd : d.Plain
    · exact (Ellecs.exec_keeps hd u).imp (fun _ _ h => h.look c i) (fun _ _ h => h.look c i)
    · cases d with
      | query ps b =>
        unfold Call.exec
        rw [tri_bind]
        unfold Tri World.query
        cases allFetches u ps with
        | none => exact fun h => h
        | some fs =>
          simp only
          cases acquireAllStatic u [] u.locks fs <;> exact fun h => h
      | queryDynamic fs b =>
        unfold Call.exec
        rw [tri_bind]
        unfold Tri World.queryDynamic
        cases acquireAllDyn u [] false u.locks fs <;> exact fun h => h
      | _ => exact absurd trivial hd
  induction h with
  | refl => exact hc
  | ok d _ _ h2 _ ih => exact (key d _).ok h2 ih
  | panic d f _ _ h2 _ _ _ ih => exact (key d _).error h2 ih

theorem runP_later {cs : List Call} {w w1 w' : World} (hw : Reachable w) (hl : Later w w1) (hr : Reachable w1) (h : runP cs w1 = some w') : Later w w' := by
  induction cs generalizing w1 with
  | nil => cases h; exact hl
  | cons c cs ih =>
    unfold runP at h
    split at h
    · rename_i w2 h1 h2
      split at h
      · rename_i hn
        exact ih (.ok c hl (okB_ok hr.sound h1) h2 hn) (.ok c hr (okB_ok hr.sound h1) h2 hn) h
      · cases h
    · rename_i f w2 h1 h2
      split at h
      · rename_i hn
        exact ih (.panic c f hl (okB_ok hr.sound h1) h2 hn.1 hn.2.1 hn.2.2) (.panic c f hr (okB_ok hr.sound h1) h2 hn.1 hn.2.1 hn.2.2) h
      · cases h
    · cases h

/-- Four more entities with `A`, and one with a new set of components. -/
def more : List Call := [.spawn .plain [.with tA (val 4 3), .build], .spawn .plain [.with tA (val 4 4), .build], .spawn .plain [.with tA (val 4 5), .build],
  .spawn .plain [.with tA (val 4 6), .build], .despawn (ent 3), .spawn .plain [.with tC (val 2 6), .build]]

theorem more_run : (runP more demo).isSome = true := by decide +kernel

def demo2 : World := (runP more demo).get more_run

theorem demo2_later : Later demo demo2 :=
  runP_later demo_reachable (.refl demo) demo_reachable (Option.some_get more_run).symm

/-- The capacities of the columns of a table. -/
def caps (w : World) (k : Nat) : Option (List Nat) := (w.archetypes[k]?).map (fun a => a.storages.map (fun p => p.2.cap))

/-- C60 is not vacuous: `more` grows the column of a table that exists in `demo`, and makes a new table. -/
example : Later demo demo2 ∧ caps demo 2 = some [16] ∧ caps demo2 2 = some [32] ∧ caps demo 5 = none ∧ caps demo2 5 = some [8] ∧
    demo.lockLookup (ent 1) = some 0 := ⟨demo2_later, by decide +kernel⟩

example := C60_tables_stay demo2_later table2_at
example := fun p => C60_capacities demo_reachable (List.mem_of_getElem? table4_at) (p := p)
example := C60_locks_stay demo2_later (c := ent 1) (i := 0) (by decide +kernel)

end Ellecs.WorldSpec
