import Verif.Proofs.Peak
import Verif.Proofs.Cases
import Verif.Props.Limits
/-!
# C84: a world's memory is bounded by its peak
-/
namespace Ellecs.WorldSpec
open World Demo

/-- C84: the world has as many slots as ids were ever alive at once (slots beyond `2^32` cannot be named and come from
calls that panicked for that reason). -/
theorem C84_slots {w : World} {n : Nat} (h : Peak w n) : min w.slots (2 ^ 32) = n := h.room

/-- C84: every reachable world has a peak, and it does not depend on how the program got there. -/
theorem C84_peak {w : World} (h : Reachable w) : ∃ n, Peak w n ∧ ∀ m, Peak w m → m = n := by
  obtain ⟨n, hn⟩ := h.peak
  exact ⟨n, hn, fun m hm => hm.room.symm.trans hn.room⟩

/-- C84: a slot is either free or used by a live id. -/
theorem C84_free {w : World} {n k : Nat} (h : Peak w n) (hk : Census w k) : k ≤ n ∧ w.entities.despawned.length = n - k := by
  have h1 := h.reachable.sound.inv.census hk
  have h2 := h.room
  omega

/-- C84: the live ids can be counted. -/
theorem C84_census (w : World) : ∃ k, Census w k := exists_census w

/-- C84: records, live ids, entities in tables and the blocks of columns stay within the peak. -/
theorem C84_memory {w : World} {n : Nat} (h : Peak w n) :
    w.metas.length ≤ n ∧ (∀ e, w.isAlive e = .ok true → e.uindex < n) ∧ w.stored ≤ n ∧
      ∀ a ∈ w.archetypes, a.entities.length ≤ n ∧ ∀ p ∈ a.storages, p.2.cap ≤ p.2.size * max 4 (2 * n) := by
  have hr := h.room
  unfold World.room at hr
  have hi := h.reachable.sound.inv
  obtain ⟨k, hk⟩ := exists_census w
  refine ⟨?_, fun e he => ?_, ?_, fun a ha => ⟨?_, fun p hp => ?_⟩⟩
  · have := h.reachable.metaLen
    rw [← hr]
    exact Nat.le_min.2 this
  · rw [← hr]
    exact Nat.lt_min.2 ⟨(Entities.isAlive_iff.1 he).lt, e.idx.isLt⟩
  · exact Nat.le_trans (hi.stored_le hk) (C84_free h hk).1
  · rw [← hr]
    exact Nat.le_min.2 (rows_le hi ha)
  · obtain ⟨h1, h2⟩ := C62_memory h.reachable ha (c := p.1) (v := p.2) hp
    by_cases hs : w.slots ≤ 2 ^ 32
    · rw [Nat.min_eq_left hs] at hr
      rw [← hr]; exact h1
    · rw [Nat.min_eq_right (by omega)] at hr
      refine Nat.le_trans h2 (Nat.mul_le_mul_left _ ?_)
      omega

/-- C84: a call that finds a free slot when it ends has not added any: as long as at most `n` ids are alive, a world
with `n` slots is large enough. -/
theorem C84_steady {w w' : World} {n k : Nat} (h : Peak w n) {c : Call} (hc : c.Ok w) (he : c.exec w = .ok () w') (hn : w'.NoFullSlot)
    (hk : Census w' k) (hle : k ≤ n) : Peak w' n ∧ min w'.slots (2 ^ 32) = min w.slots (2 ^ 32) := by
  have h1 := Peak.ok c h hc he hn hk
  rw [Nat.max_eq_left hle] at h1
  exact ⟨h1, h1.room.trans h.room.symm⟩

/-! ### Concrete cases -/

theorem demo_slots : demo.slots = 7 := by decide +kernel

/-- At most seven ids were alive at once in the history of `demo`. -/
theorem demo_peak : Peak demo 7 := by
  obtain ⟨n, hn, _⟩ := C84_peak demo_reachable
  have := C84_slots hn
  rw [demo_slots] at this
  have : n = 7 := by omega
  exact this ▸ hn

/-- Six of them are alive now: there is a free slot. -/
theorem demo_census : Census demo 6 := by
  obtain ⟨k, hk⟩ := C84_census demo
  have h1 := C84_free demo_peak hk
  have h2 : demo.entities.despawned.length = 1 := by decide +kernel
  have : k = 6 := by omega
  exact this ▸ hk

example : demo.metas.length = 7 ∧ demo.stored = 6 ∧ demo.entities.despawned = [5] := by decide +kernel
example := C84_memory demo_peak

/-- Spawn an entity without components, then another one. -/
def extra : Call := .spawn .plain [.build]
def extra1 : World := after (extra.exec demo)
def extra2 : World := after (extra.exec extra1)
theorem extra1_exec : extra.exec demo = .ok () extra1 := eq_of_endsOk (by decide +kernel)
theorem extra2_exec : extra.exec extra1 = .ok () extra2 := eq_of_endsOk (by decide +kernel)
theorem extra1_ok : extra.Ok demo := okB_ok demo_reachable.sound (by decide +kernel)
theorem extra1_calm : extra1.NoFullSlot := by decide +kernel
theorem extra1_reachable : Reachable extra1 := .ok extra demo_reachable extra1_ok extra1_exec extra1_calm
theorem extra2_ok : extra.Ok extra1 := okB_ok extra1_reachable.sound (by decide +kernel)

/-- The first one takes the free slot, the second one needs a new one. -/
example : Peak extra1 7 ∧ Peak extra2 8 := by
  have h2 : extra2.NoFullSlot := by decide +kernel
  obtain ⟨k, hk⟩ := C84_census extra1
  obtain ⟨j, hj⟩ := C84_census extra2
  have e1 := Peak.ok extra demo_peak extra1_ok extra1_exec extra1_calm hk
  have e2 := Peak.ok extra e1 extra2_ok extra2_exec h2 hj
  have s1 := C84_slots e1
  have s2 := C84_slots e2
  have t1 : extra1.slots = 7 := by decide +kernel
  have t2 : extra2.slots = 8 := by decide +kernel
  rw [t1] at s1
  rw [t2] at s2
  rw [← s1] at e1
  rw [← s2] at e2
  exact ⟨e1, e2⟩

example : ∃ k, Census extra1 k ∧ k ≤ 7 ∧ min extra1.slots (2 ^ 32) = min demo.slots (2 ^ 32) := by
  obtain ⟨k, hk⟩ := C84_census extra1
  have e1 := Peak.ok extra demo_peak extra1_ok extra1_exec extra1_calm hk
  have s1 := C84_slots e1
  have t1 : extra1.slots = 7 := by decide +kernel
  rw [t1] at s1
  have hle : k ≤ 7 := by omega
  exact ⟨k, hk, hle, (C84_steady demo_peak extra1_ok extra1_exec extra1_calm hk hle).2⟩

end Ellecs.WorldSpec
