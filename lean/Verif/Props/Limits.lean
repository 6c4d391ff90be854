import Verif.Proofs.Limits
import Verif.Props.Safe
/-!
# C62: ordinary programs stay inside the limits

Other theorems are about worlds that are `Reachable`: no call exceeded a limit of the allocator and no slot was
recycled `2^32` times.  Here this is derived from the size of the components and the number of calls of `despawn`.
-/
namespace Ellecs.WorldSpec
open World Demo

/-- C62: a program whose components have less than `2^29` bytes and that calls `despawn` less than `2^32` times gets into
worlds that are `Reachable` only, and in which columns have room to grow.  So the theorems about `Reachable` worlds apply
to it, whatever panics it causes and catches. -/
theorem C62_ordinary {s d : Nat} {w : World} (h : Ordinary s w d) (hd : d < 2 ^ 32) (hs : s < 2 ^ 29) : Reachable w ∧ w.Roomy := by
  have h4 : s * 4 < isizeMax := by unfold isizeMax; omega
  have hn : s * max 4 (2 * 2 ^ 32) * 2 < isizeMax := by
    rw [show max 4 (2 * 2 ^ 32) = 2 ^ 33 from rfl]
    unfold isizeMax
    omega
  obtain ⟨r, b⟩ := h.bounded hd h4 (Or.inr hn)
  exact ⟨r, b.roomy r.sound.inv h4 (Or.inr hn)⟩

/-- C62: no call of such a program panics because of a limit of the allocator. -/
theorem C62_no_limit {s d : Nat} {w w' : World} (h : Ordinary s w d) (hd : d < 2 ^ 32) (hs : s < 2 ^ 29) {c : Call} (hc : c.Ok w) (hw : c.Within s)
    {f : Fault} (hx : c.exec w = .error f w') : ¬ Limit f := by
  obtain ⟨h1, h2⟩ := C62_ordinary h hd hs
  exact (not_limit h1.sound.inv h1.sound.nowrap.ready h1.sound.idle h2 hc hw (by unfold isizeMax; omega)).error hx

/-- C62: larger components are fine in smaller worlds: four times the size of all slots must stay below `isize::MAX`. -/
theorem C62_slots {s d : Nat} {w : World} (h : Ordinary s w d) (hd : d < 2 ^ 32) (hs : 8 * s < isizeMax) (hn : 4 * s * w.slots < isizeMax) :
    Reachable w ∧ w.Roomy := by
  have h4 : s * 4 < isizeMax := by omega
  have hn' : s * max 4 (2 * w.slots) * 2 < isizeMax := by
    rcases Nat.le_total (2 * w.slots) 4 with hh | hh
    · rw [Nat.max_eq_left hh]; omega
    · rw [Nat.max_eq_right hh]
      have : s * (2 * w.slots) = 2 * (s * w.slots) := Nat.mul_left_comm _ _ _
      have h2 : 4 * s * w.slots = 4 * (s * w.slots) := Nat.mul_assoc _ _ _
      omega
  obtain ⟨r, b⟩ := h.bounded hd h4 (Or.inl hn')
  exact ⟨r, b.roomy r.sound.inv h4 (Or.inl hn')⟩

/-- C62: the same for programs that leak, keep and drop queries and builders (C61). -/
theorem C62_safe {s d : Nat} {w : World} {gs : List Guard} (h : OrdinarySafe s w gs d) (hd : d < 2 ^ 32) (hs : s < 2 ^ 29) : Safe w gs ∧ w.Roomy := by
  have h4 : s * 4 < isizeMax := by unfold isizeMax; omega
  have hn : s * max 4 (2 * 2 ^ 32) * 2 < isizeMax := by
    rw [show max 4 (2 * 2 ^ 32) = 2 ^ 33 from rfl]
    unfold isizeMax
    omega
  obtain ⟨r, b⟩ := h.bounded hd h4 (Or.inr hn)
  exact ⟨r, b.roomy r.inv.inv h4 (Or.inr hn)⟩

/-- C62: what such a program may meet: a call panics for a reason the documentation gives, or waits for a lock that was
leaked.  It neither touches memory it may not touch nor meets a limit. -/
theorem C62_safe_calls {s d : Nat} {w w' : World} {gs : List Guard} (h : OrdinarySafe s w gs d) (hd : d < 2 ^ 32) (hs : s < 2 ^ 29) {c : Call}
    (hc : c.Ok w) (hw : c.Within s) {f : Fault} (hx : c.exec w = .error f w') : (∀ u, f ≠ .ub u) ∧ f ≠ .fuel ∧ ¬ Limit f := by
  obtain ⟨h1, h2⟩ := C62_safe h hd hs
  exact ⟨(C61_calls h1 hc hx).1, (C61_calls h1 hc hx).2,
    (not_limit h1.inv.inv h1.inv.ready h1.inv.held h2 hc hw (by unfold isizeMax; omega)).error hx⟩

/-- C62: the world of such a program can always be dropped. -/
theorem C62_safe_drop {s d : Nat} {w : World} {gs : List Guard} (h : OrdinarySafe s w gs d) (hd : d < 2 ^ 32) (hs : s < 2 ^ 29) :
    ∃ evs, dropWorld w = .ok evs :=
  C61_drop (C62_safe h hd hs).1

/-- C62: programs that leak nothing are among them. -/
theorem C62_covers {s d : Nat} {w : World} (h : Ordinary s w d) : OrdinarySafe s w [] d := by
  induction h with
  | new => exact .new
  | ok c _ hc hw hx ih => exact .ok c ih hc hw hx
  | panic c f _ hc hw hx hf ih => exact .panic c f ih hc hw hx hf

/-- C62: how much memory a column takes in a reachable world: room for four values, or for twice as many as there are
slots (at most `2^33`). -/
theorem C62_memory {w : World} (h : Reachable w) {a : Archetype} (ha : a ∈ w.archetypes) {c : EcsId} {v : UVec} (hv : (c, v) ∈ a.storages) :
    v.cap ≤ v.size * max 4 (2 * w.slots) ∧ v.cap ≤ v.size * 2 ^ 33 :=
  ⟨h.caps.1 a ha _ hv, h.caps.2 a ha _ hv⟩

/-- C62: the first value of a column cannot be stored if four of them exceed the address space: the code panics. -/
theorem C62_too_large {v : UVec} (h0 : v.cap = 0) (hs : 2 ^ 62 ≤ v.size) (src : Bytes) : v.pushRaw src = .error .arith := by
  unfold UVec.pushRaw UVec.realloc
  rw [if_neg (by omega), if_pos (by omega), if_neg (by omega), if_pos h0]
  simp only
  rw [if_pos (by unfold usizeMax; omega)]

/-! ### Concrete cases -/

/-- A test for `Within`. -/
def withinB (s : Nat) : Call → Bool
  | .spawn kind as => (match kind with | .plain => true | .capacity n => decide (n ≤ isizeMax) | .withMeta m => decide (m.layout.size ≤ s)) &&
      as.all (fun a => match a with | .with t _ => decide (t.size ≤ s) | _ => true)
  | .addComponent _ t _ | .removeComponent _ t | .register t => decide (t.size ≤ s)
  | _ => true

theorem withinB_within {s : Nat} {c : Call} (h : withinB s c = true) : c.Within s := by
  cases c with
  | spawn kind as =>
    unfold withinB at h
    rw [Bool.and_eq_true, List.all_eq_true] at h
    refine ⟨?_, ?_, ?_⟩
    · rintro m rfl; simpa using h.1
    · rintro n rfl; simpa using h.1
    · intro t v ht; simpa using h.2 _ ht
  | addComponent e t v => exact of_decide_eq_true (p := t.size ≤ s) h
  | removeComponent e t => exact of_decide_eq_true (p := t.size ≤ s) h
  | register t => exact of_decide_eq_true (p := t.size ≤ s) h
  | _ => trivial

theorem runP_ordinary {s : Nat} {cs : List Call} {w w' : World} {d : Nat} (hw : Ordinary s w d) (hr : Reachable w) (hc : cs.all (withinB s) = true)
    (h : runP cs w = some w') : Ordinary s w' (d + (cs.map Call.despawns).sum) := by
  induction cs generalizing w d with
  | nil => cases h; exact hw
  | cons c cs ih =>
    rw [List.all_cons, Bool.and_eq_true] at hc
    rw [List.map_cons, List.sum_cons, ← Nat.add_assoc]
    unfold runP at h
    split at h
    · rename_i w1 h1 h2
      split at h
      · rename_i hn
        exact ih (.ok c hw (okB_ok hr.sound h1) (withinB_within hc.1) h2) (.ok c hr (okB_ok hr.sound h1) h2 hn) hc.2 h
      · cases h
    · rename_i f w1 h1 h2
      split at h
      · rename_i hn
        exact ih (.panic c f hw (okB_ok hr.sound h1) (withinB_within hc.1) h2 hn.2.1) (.panic c f hr (okB_ok hr.sound h1) h2 hn.1 hn.2.1 hn.2.2) hc.2 h
      · cases h
    · cases h

/-- A program that despawns twice, and panics because it uses the despawned entity. -/
def prog : List Call := [.spawn .plain [.with tA (val 4 1), .build], .spawn (.capacity 64) [.with tA (val 4 2), .with tB (val 8 2), .build],
  .despawn (ent 0), .addComponent (ent 0) tB (val 8 1), .despawn (ent 2), .spawn .plain [.with tB (val 8 3), .build]]

theorem prog_run : (runP prog World.new).isSome = true := by decide +kernel

def progEnd : World := (runP prog World.new).get prog_run

theorem progEnd_ordinary : Ordinary 8 progEnd 2 :=
  runP_ordinary .new .new (by decide) (Option.some_get prog_run).symm

/-- C62 is not vacuous. -/
example : Reachable progEnd ∧ progEnd.Roomy := C62_ordinary progEnd_ordinary (by decide) (by decide)

/-- The program ends with four slots; the blocks of emptied columns are kept. -/
example : progEnd.slots = 4 ∧ progEnd.archetypes.map (fun a => (a.entities.length, a.storages.map (fun p => (p.2.size, p.2.cap)))) =
    [(2, []), (0, [(4, 16)]), (0, [(4, 16), (8, 32)]), (1, [(8, 32)])] := by decide +kernel

/-- The program leaks a query, then despawns the last entity. -/
example : ∃ w, OrdinarySafe 8 w [.write 1] 3 ∧ Safe w [.write 1] ∧ w.Roomy := by
  obtain ⟨q, w', h1, h2, h3⟩ := leaksB_ok (w := progEnd) (ps := [.mut tB]) (gs := [.write 1]) (by decide +kernel)
  have hk := OrdinarySafe.keep _ _ (C62_covers progEnd_ordinary) h1
  rw [h3, h2] at hk
  have he : Call.exec (.despawn ⟨1, 2⟩) (after (query [.mut tB] progEnd)) =
      .ok () (after (Call.exec (.despawn ⟨1, 2⟩) (after (query [.mut tB] progEnd)))) := eq_of_endsOk (by decide +kernel)
  have hd := OrdinarySafe.ok (.despawn ⟨1, 2⟩) hk trivial trivial he
  exact ⟨_, hd, C62_safe hd (by decide) (by decide)⟩

/-- Pushing the first value of a type with `2^62` bytes. -/
example (src : Bytes) : (UVec.newFromRaw ⟨⟨2 ^ 62, 0⟩, none⟩).pushRaw src = .error .arith :=
  C62_too_large rfl (Nat.le_refl _) src

/-! ### The theorems at work -/

example := C62_no_limit progEnd_ordinary (by decide) (by decide) (c := .addComponent (ent 0) tB (val 8 1)) rfl (by show 8 ≤ 8; decide) (f := .notAlive) (eq_of_endsWith (by decide +kernel))
example := C62_slots progEnd_ordinary (by decide) (by decide) (by decide +kernel)
example := C62_safe (C62_covers progEnd_ordinary) (by decide) (by decide)
example := C62_safe_calls (C62_covers progEnd_ordinary) (by decide) (by decide) (c := .addComponent (ent 0) tB (val 8 1)) rfl (by show 8 ≤ 8; decide)
  (f := .notAlive) (eq_of_endsWith (by decide +kernel))
example := C62_safe_drop (C62_covers progEnd_ordinary) (by decide) (by decide)
theorem column2_some : (table2.storages[0]?).isSome = true := by decide +kernel
example : ∃ c v, (c, v) ∈ table2.storages ∧ v.cap ≤ v.size * max 4 (2 * demo.slots) := by
  obtain ⟨⟨c, v⟩, h⟩ := Option.isSome_iff_exists.1 column2_some
  exact ⟨c, v, List.mem_of_getElem? h, (C62_memory demo_reachable (List.mem_of_getElem? table2_at) (List.mem_of_getElem? h)).1⟩

end Ellecs.WorldSpec
