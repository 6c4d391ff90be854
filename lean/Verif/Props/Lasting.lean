import Verif.Props.Safe
import Verif.Props.Wrap
import Verif.Proofs.Lasting
/-!
# C87: recycling is harmless while types live

Programs that despawn no type are memory safe without a bound on recycling: the bound of `C48` and `C61` is only needed
for slots that are the id of a despawned type, and there it is needed (`C86`).
-/
namespace Ellecs.WorldSpec
open World Demo

/-- C87: a program that despawns no type is one of those of `C61`, however often it recycles slots. -/
theorem C87_safe {w : World} {gs : List Guard} (h : Lasting w gs) : Safe w gs := h.both.1

/-- C87: so no call touches memory it may not touch. -/
theorem C87_calls {w w' : World} {gs : List Guard} (hw : Lasting w gs) {c : Call} (hc : c.Ok w) {f : Fault} (h : c.exec w = .error f w') :
    (∀ u, f ≠ .ub u) ∧ f ≠ .fuel := C61_calls hw.both.1 hc h

/-- C87: and the world can be dropped. -/
theorem C87_drop {w : World} {gs : List Guard} (hw : Lasting w gs) : ∃ evs, dropWorld w = .ok evs := C61_drop hw.both.1

/-- C87: the id of a type always is a component with the layout and the destructor of that type. -/
theorem C87_types {w : World} {gs : List Guard} (hw : Lasting w gs) {t : Ty} {id : EcsId} (h : w.typeMap t = some id) :
    w.Alive id ∧ w.InfoIs id (.fromGeneric t) := by
  have hl := hw.both.2 t id h
  have hi := hw.both.1.inv.inv
  have hm := hi.type.comp t id h hl
  refine ⟨Entities.isAlive_live hl, ?_⟩
  refine (infoIs_iff hi).2 ⟨?_, hm⟩
  rcases getEntityMeta_spec hi id with ⟨g1, g2⟩ | ⟨g1, g2⟩ | ⟨g1, g2, g3, g4⟩ | ⟨im, cm, g1, g2, g3, g4, g5⟩
  · have := hl.lt; omega
  · exact absurd hl g2
  · rw [inst_none_iff_comp.1 g3] at hm; cases hm
  · exact (row_iff id).2 ⟨_, _, g5⟩

/-- A free slot 0 that was recycled `n` times; there is no type. -/
def worn (n : Nat) : World := husk (fun _ => none) (BitVec.ofNat 32 n)

theorem worn_lasting (n : Nat) : Lasting (worn n) [] := by
  unfold worn
  induction n with
  | zero =>
    exact .ok (.despawn ⟨0, 0⟩) (.ok (w' := full (fun _ => none) 0 .unit) (.spawn .plain [.build]) .new
      (chainOk_valid (as := []) SafeInv.new.inv SafeInv.new.ready (by simp) (by decide +kernel)) (fun _ _ h => by cases h) rfl) trivial (fun _ _ h => by cases h) (exec_despawn_full _ _ _)
  | succ n ih =>
    rw [← ofNat_succ]
    exact .ok (.despawn _) (.ok (.spawn .plain [.build]) ih (chainOk_build _ _) (fun _ _ h => by cases h) (exec_spawn_husk _ _)) trivial
      (fun _ _ h => by cases h) (exec_despawn_full _ _ _)

/-- C87: these are more programs than those of the other properties: a slot may be recycled any number of times, past
the bound of `Reachable`, and then the first id of the slot is handed out again. -/
theorem C87_beyond : (∀ n, ∃ w, Lasting w [] ∧ w.entities.generations = [(false, BitVec.ofNat 32 n)]) ∧
    ∃ w w', Lasting w [] ∧ ¬ Reachable w ∧ w.entities.generations = [(false, BitVec.ofNat 32 (2 ^ 32 - 1))] ∧ spawnId w = .ok ⟨0, 0⟩ w' := by
  refine ⟨fun n => ⟨worn n, worn_lasting n, rfl⟩, worn (2 ^ 32 - 1), taken (fun _ => none) 0, worn_lasting _, ?_, rfl, spawnId_husk _ _⟩
  intro h
  exact h.sound.nowrap _ (List.mem_singleton.2 rfl) rfl rfl

/-! ## a case -/

/-- One more recycling, and the entity gets a component: the id of the first entity of this world, which was despawned,
has a value of type `A`, and the program is still safe. -/
example : ∃ w w', Lasting w [] ∧ ¬ Reachable w ∧ Lasting w' [] ∧ w'.Alive ⟨0, 0⟩ ∧ w'.Has ⟨0, 0⟩ ⟨0, 1⟩ (val 4 7) ∧ w'.typeMap tA = some ⟨0, 1⟩ := by
  have hl := worn_lasting (2 ^ 32 - 1)
  have he : Call.exec (.spawn .plain [.with tA (val 4 7), .build]) (worn (2 ^ 32 - 1)) =
      .ok () (after (Call.exec (.spawn .plain [.with tA (val 4 7), .build]) (worn (2 ^ 32 - 1)))) := eq_of_endsOk (by decide +kernel)
  have hi := hl.both.1.inv
  refine ⟨_, _, hl, fun h => h.sound.nowrap _ (List.mem_singleton.2 rfl) rfl rfl,
    .ok (.spawn .plain [.with tA (val 4 7), .build]) hl (chainOk_valid (as := [.with tA (val 4 7)]) hi.inv hi.ready (by decide +kernel) (by decide +kernel)) (fun _ _ h => by cases h) he, ?_⟩
  decide +kernel

end Ellecs.WorldSpec
