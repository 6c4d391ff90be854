import Verif.Proofs.Text
/-! # C79: printed ids can be told apart -/
namespace Ellecs.TextSpec
open EcsId

/-- **C79**.  The numbers are written with ten characters: `0x` and eight digits that read as the number. -/
theorem C79_digits (x : BitVec 32) : (hex10 x.toNat).take 2 = ['0', 'x'] ∧ (hex10 x.toNat).length = 10 ∧ readHex ((hex10 x.toNat).drop 2) = some x.toNat :=
  ⟨rfl, hex10_length x.isLt, hex10_read x.toNat⟩

/-- **C79**.  `{}` of an id: both numbers can be read off. -/
theorem C79_display_reads (e : EcsId) :
    e.display.length = 39 ∧ readHex ((e.display.drop 13).take 8) = some e.gen.toNat ∧ readHex (e.display.drop 31) = some e.idx.toNat := by
  have h1 := hex10_length e.gen.isLt
  have h2 := hex10_length e.idx.isLt
  have h3 : (displayGen e.gen).length = 21 := by unfold displayGen; rw [List.length_append, h1]; rfl
  have h4 : e.display = (displayGen e.gen ++ ", Index ".toList) ++ hex10 e.idx.toNat := by
    unfold display displayIndex
    rw [← List.append_assoc, List.append_assoc (displayGen e.gen)]; rfl
  have h5 : (displayGen e.gen ++ ", Index ".toList).length = 29 := by rw [List.length_append, h3]; rfl
  refine ⟨by rw [h4, List.length_append, h5, h2], ?_, ?_⟩
  · have : e.display.drop 13 = (hex10 e.gen.toNat).drop 2 ++ (", ".toList ++ displayIndex e.idx) := by
      unfold display displayGen
      rw [List.append_assoc, List.append_assoc, List.drop_append]
      rw [List.drop_of_length_le (by decide)]
      show List.drop 2 _ = _
      rw [List.drop_append_of_le_length (by omega)]
    rw [this, List.take_append_of_le_length (by rw [List.length_drop]; omega), List.take_of_length_le (by rw [List.length_drop]; omega)]
    exact hex10_read _
  · rw [h4, List.drop_append, List.drop_of_length_le (by rw [h5]; decide), h5]
    exact hex10_read _

/-- **C79**.  Different ids have different texts, for `{}`, `{:?}` and `{:#?}`. -/
theorem C79_distinct {a b : EcsId} (h : a ≠ b) : a.display ≠ b.display ∧ a.debug ≠ b.debug ∧ a.debugPretty ≠ b.debugPretty := by
  have key : ∀ p m s : List Char, p ++ hex10 a.gen.toNat ++ m ++ hex10 a.idx.toNat ++ s ≠ p ++ hex10 b.gen.toNat ++ m ++ hex10 b.idx.toNat ++ s := by
    intro p m s he
    obtain ⟨h1, h2⟩ := two_inj he
    apply h
    cases a; cases b; cases h1; cases h2; rfl
  have d1 : ∀ e : EcsId, e.display = "Generation ".toList ++ hex10 e.gen.toNat ++ ", Index ".toList ++ hex10 e.idx.toNat ++ [] := by
    intro e; unfold display displayGen displayIndex; simp only [List.append_assoc, List.append_nil]; rfl
  have d2 : ∀ e : EcsId, e.debug = "EcsId(EcsId generation: ".toList ++ hex10 e.gen.toNat ++ ", EcsId index: ".toList ++ hex10 e.idx.toNat ++ ")".toList := by
    intro e; unfold debug debugGen debugIndex; simp only [List.append_assoc]; rfl
  have d3 : ∀ e : EcsId, e.debugPretty = "EcsId(\n    EcsId generation: ".toList ++ hex10 e.gen.toNat ++ ",\n    EcsId index: ".toList ++ hex10 e.idx.toNat ++ ",\n)".toList := by
    intro e; unfold debugPretty debugGen debugIndex; simp only [List.append_assoc]; rfl
  refine ⟨?_, ?_, ?_⟩
  · rw [d1, d1]; exact key _ _ _
  · rw [d2, d2]; exact key _ _ _
  · rw [d3, d3]; exact key _ _ _

/-- **C79**.  Generations and indices print differently too. -/
theorem C79_parts {x y : BitVec 32} (h : x ≠ y) :
    displayGen x ≠ displayGen y ∧ debugGen x ≠ debugGen y ∧ displayIndex x ≠ displayIndex y ∧ debugIndex x ≠ debugIndex y :=
  ⟨fun e => h (hex10_inj (List.append_cancel_left e)), fun e => h (hex10_inj (List.append_cancel_left e)),
    fun e => h (hex10_inj (List.append_cancel_left e)), fun e => h (hex10_inj (List.append_cancel_left e))⟩

/-- C79: two ids that differ in the generation. -/
example : (EcsId.new 12 1).display = "Generation 0x00000001, Index 0x0000000C".toList ∧
    (EcsId.new 12 0xABCDEF01).debug = "EcsId(EcsId generation: 0xABCDEF01, EcsId index: 0x0000000C)".toList ∧ EcsId.new 12 1 ≠ EcsId.new 12 0xABCDEF01 := by
  decide +kernel

example := C79_digits 0xABCDEF01
example := C79_display_reads (EcsId.new 12 1)
example := C79_distinct (a := EcsId.new 12 1) (b := EcsId.new 12 2) (by decide)
example := C79_parts (x := 3) (y := 4) (by decide)

end Ellecs.TextSpec
