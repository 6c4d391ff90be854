import Verif.Proofs.DemoFacts
import Verif.Proofs.Meta
import Verif.Proofs.Demo
import Verif.Proofs.Chain
/-! # C55: the metadata of components -/
namespace Ellecs.WorldSpec
open World Demo

theorem find_exponent (align : Nat) :
    (∃ a : Fin 64, (List.finRange 64).find? (fun a => align == 2 ^ a.val) = some a ∧ align = 2 ^ a.val) ∨
    ((List.finRange 64).find? (fun a => align == 2 ^ a.val) = none ∧ ∀ k < 64, align ≠ 2 ^ k) := by
  cases h : (List.finRange 64).find? (fun a => align == 2 ^ a.val) with
  | some a => exact Or.inl ⟨a, rfl, by simpa using List.find?_some h⟩
  | none =>
    refine Or.inr ⟨rfl, fun k hk he => ?_⟩
    have := List.find?_eq_none.1 h ⟨k, hk⟩ (List.mem_finRange _)
    simp [he] at this

/-- C55: `ComponentMeta::from_size_align` accepts exactly the powers of two with a size that does not overflow when it is rounded up to the
alignment, and the layout has this size and this alignment. -/
theorem C55_from_size_align (size align : Nat) :
    (((∃ k < 64, align = 2 ^ k) ∧ size + (align - 1) < 2 ^ 64) →
      ∃ m, ComponentMeta.fromSizeAlign size align = .ok m ∧ m.layout.size = size ∧ m.layout.align = align ∧ m.dropFn = none) ∧
    (¬ ((∃ k < 64, align = 2 ^ k) ∧ size + (align - 1) < 2 ^ 64) → ComponentMeta.fromSizeAlign size align = .error .layoutErr) := by
  unfold ComponentMeta.fromSizeAlign
  rcases find_exponent align with ⟨a, h1, h2⟩ | ⟨h1, h2⟩
  · rw [h1]
    simp only
    by_cases hs : size + (align - 1) < 2 ^ 64
    · have hk : layoutOk size a = true := by
        unfold layoutOk usizeMax
        rw [← h2]
        exact decide_eq_true (by omega)
      rw [if_pos hk]
      exact ⟨fun _ => ⟨_, rfl, rfl, h2.symm, rfl⟩, fun h => absurd ⟨⟨a.val, a.isLt, h2⟩, hs⟩ h⟩
    · have hk : ¬ layoutOk size a = true := by
        unfold layoutOk usizeMax
        rw [← h2]
        simp only [decide_eq_true_eq]
        omega
      rw [if_neg hk]
      exact ⟨fun h => absurd h.2 hs, fun _ => rfl⟩
  · rw [h1]
    exact ⟨fun ⟨⟨k, hk, he⟩, _⟩ => absurd he (h2 k hk), fun _ => rfl⟩

/-- Both cases of `C55_from_size_align`. -/
example : ((∃ k < 64, 8 = 2 ^ k) ∧ 24 + (8 - 1) < 2 ^ 64) ∧ ¬ ((∃ k < 64, 6 = 2 ^ k) ∧ 24 + (6 - 1) < 2 ^ 64) ∧
    ¬ ((∃ k < 64, 2 = 2 ^ k) ∧ 2 ^ 64 - 1 + (2 - 1) < 2 ^ 64) := by
  refine ⟨⟨⟨3, by omega, rfl⟩, by omega⟩, ?_, by omega⟩
  rintro ⟨⟨k, hk, he⟩, _⟩
  have : ∀ k : Fin 64, 6 ≠ 2 ^ k.val := by decide +kernel
  exact this ⟨k, hk⟩ he

/-- The metadata a chain was started with. -/
def StartedWith : SpawnKind → ComponentMeta → Prop
  | .withMeta m, m' => m' = m
  | _, m' => m'.layout.size = 0 ∧ m'.layout.align = 1 ∧ m'.dropFn = none

/-- C55: a built entity, used as a component, has the layout and drop function it was spawned with (none and size zero if it was spawned without
metadata) as long as it is alive, whatever calls are made. -/
theorem C55_spawned {w : World} (hw : Reachable w) {kind : SpawnKind} {as : List BAct} (hv : ∀ a ∈ as, ActValid w a) (hd : Distinct w as)
    {e : EcsId} {w' w2 : World} (hr : spawnWith kind (as ++ [.build]) w = .ok e w') (hn : w'.NoFullSlot) (hl : Later w' w2) (ha : w2.Alive e) :
    ∃ m, w2.InfoIs e m ∧ StartedWith kind m := by
  have hs := hw.sound
  have hnb : .build ∉ as := fun hb => (hv _ hb).ne rfl
  have hok := chainOk_valid hs.inv hs.nowrap.ready (kind := kind) hv hd
  have ho := (spawnWith_spec hs.inv hs.nowrap.ready hok).ok hr
  obtain ⟨vals, v1, v2, v3, hm⟩ := outcome_build hnb ho
  have hi : w'.InfoIs e kind.cmeta := (infoIs_iff hm.inv).2 ⟨(hm.row e).2 (Or.inr (Or.inr ⟨trivial, rfl⟩)), hm.cm trivial⟩
  have hw' : Reachable w' := .ok (.spawn kind (as ++ [BAct.build])) hw hok
    (by show (EStateM.bind (spawnWith kind (as ++ [.build])) _) w = _; unfold EStateM.bind; rw [hr]; rfl) hn
  refine ⟨kind.cmeta, (hl.stays hw').info e _ hi (alive_iff.1 ha), ?_⟩
  cases kind with
  | plain => exact ⟨rfl, rfl, rfl⟩
  | capacity n => exact ⟨rfl, rfl, rfl⟩
  | withMeta m => exact rfl

/-- C55: the layout and drop function of a component never change while it is alive. -/
theorem C55_kept {w w' : World} (hw : Reachable w) (hl : Later w w') {c : EcsId} {m : ComponentMeta} (hm : w.InfoIs c m) (ha : w'.Alive c) :
    w'.InfoIs c m := (hl.stays hw).info c m hm (alive_iff.1 ha)

/-- C55: every column of a component has its layout and drop function, and every value of it has its size. -/
theorem C55_columns {w : World} (hw : Reachable w) {c : EcsId} {m : ComponentMeta} (hm : w.InfoIs c m) :
    (∀ a ∈ w.archetypes, ∀ v, (c, v) ∈ a.storages → v.info.layout = m.layout ∧ v.info.dropFn = m.dropFn) ∧
    ∀ e bs, w.Has e c bs → bs.length = m.layout.size := by
  have hi := hw.sound.inv
  have key : ∀ a ∈ w.archetypes, ∀ v, (c, v) ∈ a.storages → v.info = m.info := by
    intro a ha v hv
    obtain ⟨_, _, q3⟩ := hi.col a ha _ hv
    obtain ⟨hl, m', h1, h2⟩ := infoFn_some.1 q3
    rw [((infoIs_iff hi).1 hm).2] at h1
    injection h1 with h1; subst h1
    exact h2.symm
  refine ⟨fun a ha v hv => by rw [key a ha v hv]; exact ⟨rfl, rfl⟩, ?_⟩
  rintro e bs ⟨k, r, a, v, h1, h2, h3, h4⟩
  have ha := List.mem_of_getElem? h1
  obtain ⟨q1, q2, _⟩ := hi.col a ha _ h3
  have hr : r < v.count := by
    have : v.count = a.entities.length := q2
    rw [this]; exact (List.getElem?_eq_some_iff.1 h2).1
  rw [elems_row hr] at h4
  injection h4 with h4
  rw [← h4, UVec.length_elem q1 hr]
  unfold UVec.size
  rw [key a ha v h3]
  rfl

/-- The demo world: the component of `B` has its layout, and a column with a value. -/
example : Reachable demo ∧ demo.InfoIs (ent 2) ⟨some (.generic tB), ⟨8, 3⟩⟩ ∧ demo.Has (ent 6) (ent 2) (val 8 8) :=
  ⟨demo_reachable, by decide +kernel, by decide +kernel⟩

/-- A component made by hand, used by another entity afterwards. -/
theorem handmade_runs : (runP [.spawn (.withMeta ⟨none, ⟨6, 2⟩⟩) [.with tA (val 4 9), .build], .spawn .plain [.withDynamicWithData ⟨1, 5⟩ (val 6 1), .build]] demo).isSome = true := by
  decide +kernel
def handmade : World := (runP [.spawn (.withMeta ⟨none, ⟨6, 2⟩⟩) [.with tA (val 4 9), .build], .spawn .plain [.withDynamicWithData ⟨1, 5⟩ (val 6 1), .build]] demo).get handmade_runs
theorem handmade_reachable : Reachable handmade := runP_reachable demo_reachable (Option.some_get handmade_runs).symm

example : handmade.Alive ⟨1, 5⟩ ∧ handmade.InfoIs ⟨1, 5⟩ ⟨none, ⟨6, 2⟩⟩ ∧ handmade.Has (ent 7) ⟨1, 5⟩ (val 6 1) := by decide +kernel

/-- The hypotheses of `C55_spawned` are met. -/
example : ∃ w', spawnWith (.withMeta ⟨none, ⟨6, 2⟩⟩) ([.with tA (val 4 9)] ++ [.build]) demo = .ok ⟨1, 5⟩ w' ∧ w'.NoFullSlot ∧ w'.Alive ⟨1, 5⟩ ∧
    (∀ a ∈ [BAct.with tA (val 4 9)], ActValid demo a) ∧ Distinct demo [BAct.with tA (val 4 9)] :=
  ⟨_, eq_of_endsOk (by decide +kernel), by decide +kernel, by decide +kernel, by decide +kernel, by decide +kernel⟩

example := C55_spawned demo_reachable (kind := .withMeta ⟨none, ⟨6, 2⟩⟩) (as := [.with tA (val 4 9)]) (by decide +kernel) (by decide +kernel) (e := ⟨1, 5⟩) (eq_of_endsOk (by decide +kernel)) (by decide +kernel) (.refl _) (by decide +kernel)
example := C55_kept demo_reachable (.refl _) infoB (by decide +kernel)
example := C55_columns demo_reachable infoB

end Ellecs.WorldSpec
