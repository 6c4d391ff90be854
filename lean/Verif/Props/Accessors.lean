import Verif.Model.Accessors
import Verif.Props.Build
import Verif.Props.UntypedVec
/-! # Plain accessors and the `spawn!` macro -/
namespace Ellecs

namespace VecSpec
open UVec

/-- **C38**.  `raw_len` is the number of bytes of the elements, as documented ("Length in bytes"), if they have a size;
for elements without a size it is the number of elements. -/
theorem C38_raw_len {v l p} (h : Hist v l p) :
    v.rawLen = if v.size = 0 then l.length else l.length * v.size := by
  obtain ⟨i1, i2, _, _⟩ := h.inv
  have hc : v.count = l.length := by rw [← i2, length_elems]
  unfold rawLen
  split
  · rename_i hz; rw [← hc, count_zst hz]
  · rename_i hz; rw [len_eq i1 hz, hc]

example : (UVec.mk ⟨⟨2, 1⟩, none⟩ (some ⟨8, 1⟩) ([some 5, some 6] ++ List.replicate 6 none) 8 2).rawLen = 2 :=
  C38_raw_len (.push [some 5, some 6] (.new ⟨⟨2, 1⟩, none⟩) (Nat.le_refl 2) rfl)

/-- **C38**.  No call changes the type information of a vec; a vec made from another one has the same. -/
theorem C38_type_info {v l p} (h : Hist v l p) :
    (newFromUntypedVec v).getTypeInfo = v.getTypeInfo ∧
    (∀ src v', v.size ≤ src.length → v.pushRaw src = .ok v' → v'.getTypeInfo = v.getTypeInfo) ∧
    (∀ b v' evs, v.pop = .ok (b, v', evs) → v'.getTypeInfo = v.getTypeInfo) ∧
    (∀ i v' evs, v.swapRemove i = .ok (v', evs) → v'.getTypeInfo = v.getTypeInfo) ∧
    (∀ o lo po i v' o', Hist o lo po → i < l.length → v.swapMove o i = .ok (v', o') →
      v'.getTypeInfo = v.getTypeInfo ∧ o'.getTypeInfo = o.getTypeInfo) ∧
    (∀ v', v.realloc = .ok v' → v'.getTypeInfo = v.getTypeInfo) := by
  obtain ⟨i1, i2, _, _⟩ := h.inv
  have hc : v.count = l.length := by rw [← i2, length_elems]
  unfold getTypeInfo
  refine ⟨rfl, fun src v' hs he => ?_, fun b v' evs he => ?_, fun i v' evs he => ?_, fun o lo po i v' o' ho hi he => ?_,
    fun v' he => ?_⟩
  · rcases pushRaw_spec i1 src hs with ⟨f, e, _⟩ | ⟨v₁, e, _, j2, _⟩
    · rw [he] at e; cases e
    · rw [he] at e; cases e; exact j2
  · unfold UVec.pop at he
    simp only at he
    split at he
    · split at he <;> cases he; rfl
    · split at he
      · split at he <;> cases he; rfl
      · cases he; rfl
  · by_cases hk : i < v.count
    · obtain ⟨v₁, e, _, j2, _⟩ := swapRemove_spec i1 hk
      rw [he] at e; cases e; exact j2
    · rw [swapRemove_oob (by omega)] at he; cases he
  · have hlay : v.info.layout = o.info.layout := by
      by_cases h : v.info.layout = o.info.layout
      · exact h
      · unfold swapMove at he; rw [if_pos h] at he; cases he
    rcases swapMove_spec i1 ho.inv.1 hlay (i := i) (by omega) with ⟨f, e, _⟩ | ⟨v₁, o₁, e, _, j2, _, _, _, j6, _⟩
    · rw [he] at e; cases e
    · rw [he] at e; cases e; exact ⟨j2, j6⟩
  · by_cases hz : v.size = 0
    · unfold UVec.realloc at he; rw [if_pos hz] at he; cases he
    · rcases realloc_spec i1 hz with ⟨f, e, _⟩ | ⟨v₁, e, _, j2, _⟩
      · rw [he] at e; cases e
      · rw [he] at e; cases e; exact j2

example := C38_type_info (.push (v' := ⟨⟨⟨1, 0⟩, none⟩, some ⟨4, 0⟩, [some 5, none, none, none], 4, 1⟩) [some 5]
  (.new ⟨⟨1, 0⟩, none⟩) (Nat.le_refl 1) rfl)

end VecSpec

namespace WorldSpec
open World Demo

/-- **C06**.  `spawn!(&mut world, c1, …, cn)` with values of different types (whose component entities, if any, are
alive): the id returned is fresh and alive, and the entity has exactly the given values, each as the component of its
type; every other entity has what it had and nothing is dropped. -/
theorem C06_spawn_macro {w : World} (hw : Reachable w) {vs : List (Ty × Bytes)} (hl : ∀ p ∈ vs, p.2.length = p.1.size)
    (ha : ∀ p ∈ vs, ∀ c, w.typeMap p.1 = some c → w.Alive c) (hd : (vs.map (·.1)).Nodup) {e : EcsId} {w' : World}
    (hr : spawnMacro vs w = .ok e w') :
    ¬ w.Alive e ∧ w'.Alive e ∧
    (∀ c bs, w'.Has e c bs ↔ ∃ p ∈ vs, w'.typeMap p.1 = some c ∧ bs = p.2) ∧
    (∀ p ∈ vs, ∃ c, w'.typeMap p.1 = some c ∧ w'.Has e c p.2) ∧
    (∀ x, x ≠ e → ∀ c bs, w'.Has x c bs ↔ w.Has x c bs) ∧ w'.log = w.log := by
  have hv : ∀ a ∈ vs.map (fun p => BAct.with p.1 p.2), ActValid w a := by
    intro a h
    obtain ⟨p, hp, rfl⟩ := List.mem_map.1 h
    exact ⟨hl p hp, ha p hp⟩
  have hdi : Distinct w (vs.map (fun p => BAct.with p.1 p.2)) := by
    unfold Distinct
    rw [List.pairwise_map]
    refine (List.pairwise_map.1 hd).imp ?_
    intro p q hne hc
    rcases hc with ⟨t, v, v', h1, h2⟩ | ⟨c, h1, h2⟩
    · injection h1 with h1; injection h2 with h2; exact hne (h1.trans h2.symm)
    · exact hne (hw.sound.inv.type.inj _ _ _ h1 h2)
  obtain ⟨⟨h1, _⟩, h2, _, h4, h5, h6, _, _, _, _, h11⟩ := C06_build_exact hw hv hdi hr
  refine ⟨h1, h2, fun c bs => ?_, fun p hp => ?_, h6, h11⟩
  · rw [h4]
    constructor
    · rintro ⟨a, h, hg⟩
      obtain ⟨p, hp, rfl⟩ := List.mem_map.1 h
      exact ⟨p, hp, hg⟩
    · rintro ⟨p, hp, hg⟩
      exact ⟨_, List.mem_map_of_mem hp, hg⟩
  · obtain ⟨c, bs, hg⟩ := h5 _ (List.mem_map_of_mem hp)
    obtain ⟨hg1, hg2⟩ := (show w'.typeMap p.1 = some c ∧ bs = p.2 from hg)
    exact ⟨c, hg1, (h4 c p.2).2 ⟨_, List.mem_map_of_mem hp, hg1, rfl⟩⟩

example := C06_spawn_macro demo_reachable (vs := [(tB, val 8 9), (tC, val 2 1)]) (by decide +kernel) (by decide +kernel)
  (by decide +kernel) (e := ⟨1, 5⟩) (eq_of_endsOk (by decide +kernel))

end WorldSpec
end Ellecs
