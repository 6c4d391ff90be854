import Verif.Proofs.Wrap
/-!
# C86: memory safety ends when a generation wraps around

`C48` assumes that no slot is recycled `2^32` times.  Safe code can do that in minutes, and then the id of a despawned
type is the id of another entity.
-/
namespace Ellecs.WorldSpec
open World Demo

/-- C86: ask for the id of a type, despawn it, recycle its slot until its generation wraps around: the type still has that
id, which is now the id of an entity that is alive and, as a component, has no data. -/
theorem C86_revived (t : Ty) : ∃ w, Returns World.new (revive t (2 ^ 32 - 1)) w ∧ w.typeMap t = some ⟨0, 0⟩ ∧ w.Alive ⟨0, 0⟩ ∧ w.InfoIs ⟨0, 0⟩ .unit := by
  refine ⟨full (only t) 0 .unit, revive_returns t (2 ^ 32 - 1), by simp [full, oneSlot, only, mapInsert], rfl, ⟨⟨0, 0⟩, ?_⟩⟩
  rfl

/-- C86: `C48` needs its bound.  All these calls are safe and return; the value was thrown away; and a query for the type,
whatever the type and the value are, makes a reference into a column that does not hold values of the type (`get`), or
moves a pointer out of its block (`iter`). -/
theorem C86_unsound (t : Ty) (ht : 0 < t.size) {v : Bytes} (hv : v.length = t.size) :
    ∃ w q w' it, Returns World.new (revive t (2 ^ 32 - 1) ++ [.spawn .plain [.with t v, .build]]) w ∧ w.HasT ⟨0, 1⟩ t [] ∧
      query [.ref t] w = .ok q w' ∧ q.get w' ⟨0, 1⟩ = .error (.ub .typeConfusion) ∧
      q.iter w' = .ok it ∧ StaticIter.next w' it = .error (.ub .ptrOob) := by
  obtain ⟨w', hq, hw⟩ := query_doubted t
  refine ⟨doubted t, _, w', ⟨[.ref t], some [.immut ⟨0, 0⟩], BitsetIter.new [⟨[2], fun x => x⟩] 2, 0, [⟨.null, 0⟩]⟩,
    (revive_returns t (2 ^ 32 - 1)).append (.cons (chainOk_second t hv) (exec_spawn_second t v) (.nil _)), ⟨⟨0, 0⟩, typeMap_doubted t, ?_⟩, hq, ?_, ?_, ?_⟩
  · refine ⟨1, 0, ⟨mapInsert (fun _ => none) ⟨0, 0⟩ 0, [⟨0, 1⟩], [(⟨0, 0⟩, ⟨⟨⟨0, 0⟩, none⟩, none, [], 0, 1⟩)], [⟨0, 0⟩], AddRemoveCache.new⟩, _, by with_unfolding_all rfl, rfl, List.mem_cons_self, rfl⟩
  · rw [hw]
    have h1 : ∀ ls, World.checkRef { doubted t with locks := ls } t ⟨.storage 1 0, 0⟩ = .error (.ub .typeConfusion) := by
      intro ls
      have : ∀ ls, World.checkRef { doubted t with locks := ls } t ⟨.storage 1 0, 0⟩ =
        if (⟨⟨0, 0⟩, none⟩ : TypeInfo) ≠ ⟨t.layout, some (.generic t)⟩ then .error (.ub .typeConfusion)
        else if t.size = 0 then .ok () else if 0 % t.size = 0 ∧ 0 + t.size ≤ 1 then .ok ()
        else .error (.ub .readOob) := by intro ls; with_unfolding_all rfl
      rw [this, if_pos (by simp)]
    have h2 : ∀ ls, StaticQuery.get ⟨[.ref t], [.read 0], some [.immut ⟨0, 0⟩]⟩ { doubted t with locks := ls } ⟨0, 1⟩ =
      match offsetPtrs { doubted t with locks := ls } 0 [.ref t] [⟨.storage 1 0, 0⟩] with
              | .error f => .error f
              | .ok ptrs =>
                match castPtrs { doubted t with locks := ls } [.ref t] ptrs with
                | .error f => .error f
                | .ok items => .ok (some items) := by
      intro ls; with_unfolding_all rfl
    rw [h2]
    simp only [offsetPtrs, ptrAdd, Nat.zero_mul, if_true, castPtrs, Param.castPtr, h1]
  · rw [hw]; with_unfolding_all rfl
  · rw [hw]
    have h : ∀ ls, StaticIter.next { doubted t with locks := ls } ⟨[.ref t], some [.immut ⟨0, 0⟩], BitsetIter.new [⟨[2], fun x => x⟩] 2, 0, [⟨.null, 0⟩]⟩ =
        StaticIter.loop { doubted t with locks := ls } 3 ⟨[.ref t], some [.immut ⟨0, 0⟩], ((BitsetIter.new [⟨[2], fun x => x⟩] 2).next).2, 1, [⟨.storage 1 0, 0⟩]⟩ := by
      intro ls; with_unfolding_all rfl
    have hb : ∀ ls, World.blockLen { doubted t with locks := ls } (.storage 1 0) = some 0 := by intro ls; with_unfolding_all rfl
    have ho : ∀ ls, offsetPtrs { doubted t with locks := ls } 1 [.ref t] [⟨.storage 1 0, 0⟩] = .error (.ub .ptrOob) := by
      intro ls
      have h1 : ¬ 1 * (Param.ref t).size = 0 := by show ¬ 1 * t.size = 0; omega
      have h2 : ¬ 0 + 1 * (Param.ref t).size ≤ 0 := by omega
      simp only [offsetPtrs, ptrAdd, if_neg h1, hb, if_neg h2]
    rw [h]
    unfold StaticIter.loop
    simp only [ho]
    rfl

/-- C86: up to the bound the same program is one of those of `C48`: the despawned id is dead, and the entity with the
component is not built. -/
theorem C86_before (t : Ty) (v : Bytes) {n : Nat} (hn : n + 1 < 2 ^ 32) :
    ∃ w w', Returns World.new (revive t n) w ∧ Reachable w ∧ ¬ w.Alive ⟨0, 0⟩ ∧ spawnWith .plain [.with t v, .build] w = .error .deadComponent w' := by
  have hg : BitVec.ofNat 32 (n + 1) ≠ 0 := by
    intro h
    have := congrArg BitVec.toNat h
    simp only [BitVec.toNat_ofNat] at this
    have h2 : (0 : BitVec 32).toNat = 0 := rfl
    omega
  refine ⟨_, _, revive_returns t n, reachable_full t n hn, ?_, spawn_before t v hg⟩
  unfold Alive
  intro h
  have : (full (only t) (BitVec.ofNat 32 (n + 1)) .unit).isAlive ⟨0, 0⟩ = .ok (true && (0 : BitVec 32) == BitVec.ofNat 32 (n + 1)) := rfl
  rw [this] at h
  injection h with h
  simp only [Bool.true_and, beq_iff_eq] at h
  exact hg h.symm

/-! ## a case -/

/-- `A` has four bytes. -/
example : ∃ w q w' it, Returns World.new (revive tA (2 ^ 32 - 1) ++ [.spawn .plain [.with tA (val 4 7), .build]]) w ∧ w.HasT ⟨0, 1⟩ tA [] ∧
    query [.ref tA] w = .ok q w' ∧ q.get w' ⟨0, 1⟩ = .error (.ub .typeConfusion) ∧ q.iter w' = .ok it ∧ StaticIter.next w' it = .error (.ub .ptrOob) :=
  C86_unsound tA (by decide) (by decide)

/-- The program has eight thousand million calls; with one recycling it is this one. -/
example : (revive tA (2 ^ 32 - 1)).length = 8589934593 ∧
    (revive tA 1).map (fun c => match c with | .despawn e => some e | _ => none) = [none, some ⟨0, 0⟩, none, some ⟨1, 0⟩, none] := by
  refine ⟨?_, rfl⟩
  have h : ∀ n, (recycle n).length = 2 * n := by
    intro n
    unfold recycle
    induction n with
    | zero => rfl
    | succ n ih => rw [List.range_succ, List.flatMap_append, List.length_append, ih]; simp; omega
  unfold revive
  rw [List.length_append, List.length_append, h]
  rfl

/-- After three recyclings the id is dead. -/
example : ∃ w w', Returns World.new (revive tA 3) w ∧ Reachable w ∧ ¬ w.Alive ⟨0, 0⟩ ∧ spawnWith .plain [.with tA (val 4 7), .build] w = .error .deadComponent w' :=
  C86_before tA _ (by decide)

end Ellecs.WorldSpec
