import Verif.Proofs.Cases
import Verif.Props.Query
import Verif.Proofs.Population
/-!
# C51: the entities visible through `query::<(EcsIds,)>`
-/
namespace Ellecs.WorldSpec
open World Demo

/-- C51: iterating `query::<(EcsIds,)>` yields each entity that was built and not despawned once, and nothing else. -/
theorem C51_population {w v v' : World} {P : EcsId → Prop} (h : Population w P) (hv : SameButLocks w v) (hlen : w.archetypes.length < 2 ^ 32)
    {q : StaticQuery} (hq : query [.ids] v = .ok q v') :
    ∃ (it : StaticIter) (es : List EcsId), q.iter v' = .ok it ∧ Produces (fun s => StaticIter.next v' s) it (es.map (fun e => [.id e])) ∧
      es.Nodup ∧ ∀ e, e ∈ es ↔ P e := by
  obtain ⟨it, es, rows, h1, h2, h3, h4, h5⟩ := C14_iter_exact h.reachable hv hlen (by simp) hq
  refine ⟨it, es, h1, ?_, h3, fun e => ?_⟩
  · have : rows = es.map (fun e => [.id e]) := by
      clear h1 h2 h3 h4
      induction h5 with
      | nil => rfl
      | cons ha _ ih =>
        rw [ih, List.map_cons]
        cases ha with
        | cons hb hc =>
          cases hc
          rw [show _ = _ from hb]
    rw [← this]; exact h2
  · rw [h4, ← h.rows]
    constructor
    · exact fun hh => hh.1
    · intro hh
      refine ⟨hh, fun p hp t ht => ?_⟩
      simp only [List.mem_singleton] at hp
      subst hp
      rcases ht with ht | ht <;> cases ht

/-- C51: such a query can always be created. -/
theorem C51_creation (w : World) : ∃ q v', query [.ids] w = .ok q v' := ⟨_, _, rfl⟩

/-- Every reachable world has such a history. -/
theorem C51_histories {w : World} (h : Reachable w) : Population w w.Row := by
  induction h with
  | new => exact (show World.new.Row = fun _ => False from funext fun x => propext ⟨fun hx => absurd hx new_row, fun hx => hx.elim⟩) ▸ .new
  | ok c h0 hc he hn ih =>
    have hs := h0.sound
    exact .ok c ih hc he hn ((exec_rows hs.inv hs.nowrap hc).ok he)
  | panic c f h0 hc he hl hd hn ih =>
    have hs := h0.sound
    rcases (exec_rows hs.inv hs.nowrap hc).error he with (hh | hh) | hh
    · exact absurd hh hl
    · exact absurd hh hd
    · exact .panic c f ih hc he hl hd hn hh

example : Population demo demo.Row ∧ demo.Row (ent 6) ∧ demo.Row (ent 1) ∧ ¬ demo.Row (ent 5) :=
  ⟨C51_histories demo_reachable, by decide +kernel, by decide +kernel, by decide +kernel⟩

example := C51_population (C51_histories demo_reachable) busy_same demo_small (q := ⟨[.ids], [.none], some [.ecsId]⟩) (eq_of_endsOk (by decide +kernel))
example := C51_creation demo

end Ellecs.WorldSpec
