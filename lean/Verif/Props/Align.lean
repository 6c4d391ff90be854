import Verif.Proofs.Cases
import Verif.Spec.Align
import Verif.Props.Safety
/-!
# C56: references and pointers to components are aligned

A misaligned reference is undefined behaviour in Rust.  This is not part of `Fault.ub`; it is this property.
-/
namespace Ellecs.WorldSpec
open World Demo

/-- The address of a pointer to a value. -/
theorem address_points {w : World} (h : Inv w) {base : Nat → Nat → Nat} {p : Ptr} {e c : EcsId} (hp : w.PointsAt p e c) {m : ComponentMeta}
    (hm : w.InfoIs c m) : ∃ (k j r : Nat) (v : UVec) (a : Archetype), w.archetypes[k]? = some a ∧ a.storages[j]? = some (c, v) ∧ UVec.Inv v ∧ r < v.count ∧
      v.info = m.info ∧ w.addressOf base p = some (VecSpec.addr (base k j) v (r * v.size)) := by
  obtain ⟨k, j, r, a, v, h1, h2, h3, rfl, q1, q2, hr, q3, hh⟩ := hp.cell h
  obtain ⟨hl, m', g1, g2⟩ := infoFn_some.1 q3
  rw [((infoIs_iff h).1 hm).2] at g1
  injection g1 with g1; subst g1
  exact ⟨k, j, r, v, a, h1, h3, q1, hr, g2.symm, by simp [addressOf, h1, h3]⟩

/-- C56 for pointers to values that are not zero sized and whose size is a multiple of the alignment, which is true of every Rust type.
Missing: zero sized types (`C56_zst_misaligned`) and hand made layouts. -/
theorem C56_pointer_partial {w : World} (hw : Reachable w) {base : Nat → Nat → Nat} (hb : w.BasesAligned base) {p : Ptr} {e c : EcsId}
    (hp : w.PointsAt p e c) {m : ComponentMeta} (hm : w.InfoIs c m) (hz : m.layout.size ≠ 0) (hd : m.layout.align ∣ m.layout.size) :
    w.PtrAligned base p m.layout := by
  obtain ⟨k, j, r, v, a, h1, h2, h3, h4, h5, h6⟩ := address_points hw.sound.inv (base := base) hp hm
  have hl : v.info.layout = m.layout := by rw [h5]; rfl
  refine ⟨_, h6, ?_⟩
  have hoff : m.layout.align ∣ r * v.size := Nat.dvd_trans (by rw [← hl] at hd; rw [← hl]; exact hd) (Nat.dvd_mul_left v.size r)
  rcases h3.block with ⟨g1, _⟩ | ⟨_, g1, _⟩
  · have := UVec.elem_bound h3 h4
    rw [h3.mem, g1] at this
    have : v.size = m.layout.size := by unfold UVec.size; rw [hl]
    omega
  · have hba := hb k j a _ h1 h2
    unfold VecSpec.Aligned at hba
    simp only [g1] at hba
    unfold VecSpec.addr
    simp only [g1]
    refine Nat.dvd_add ?_ hoff
    have : (⟨v.cap, v.alignLog⟩ : Layout).align = m.layout.align := by rw [← hl]; rfl
    rw [← this]; exact hba

/-- What C56 says about a reference to a value of type `t`: a Rust type with a size has a size that is a multiple of its alignment. -/
def RefAligned (w : World) (base : Nat → Nat → Nat) (t : Ty) (p : Ptr) : Prop := t.size ≠ 0 → t.layout.align ∣ t.size → w.PtrAligned base p t.layout

theorem addressOf_locks {w : World} (ls : List RwLock) (base : Nat → Nat → Nat) (p : Ptr) : addressOf { w with locks := ls } base p = w.addressOf base p := rfl

theorem refAligned_of {w : World} (hw : Reachable w) {base : Nat → Nat → Nat} (hb : w.BasesAligned base) {e c : EcsId} {t : Ty} {p : Ptr}
    (ht : w.typeMap t = some c) (hp : w.PointsAt p e c) : RefAligned w base t p :=
  fun hz hd => C56_pointer_partial hw hb hp (infoIs_type hw.sound.inv ht hp) hz hd

/-- C56 for the references of a static query, whatever else is alive, for types that are not zero sized. -/
theorem C56_static_refs_partial {w v v' : World} (hw : Reachable w) (hv : SameButLocks w v) (hlen : w.archetypes.length < 2 ^ 32) {ps : List Param}
    (hne : ps ≠ []) {q : StaticQuery} (hq : query ps v = .ok q v') {base : Nat → Nat → Nat} (hb : w.BasesAligned base) :
    ∃ (it : StaticIter) (rows : List (List Item)), q.iter v' = .ok it ∧ Produces (fun s => StaticIter.next v' s) it rows ∧
      ∀ row ∈ rows, ∀ i ∈ row, ∀ t p, RefersTo i t p → RefAligned v' base t p := by
  obtain ⟨it, es, rows, h1, h2, h3, h4, h5⟩ := C14_iter_exact hw hv hlen hne hq
  refine ⟨it, rows, h1, h2, fun row hrow i hi' t p hr => ?_⟩
  have hv' := hv.trans' (query_ok hq).2.1
  obtain ⟨n, hn⟩ := List.mem_iff_getElem?.1 hrow
  obtain ⟨e, e1, e2⟩ := Pairs.at' h5 hn
  obtain ⟨m, hm⟩ := List.mem_iff_getElem?.1 hi'
  obtain ⟨x, x1, x2⟩ := Pairs.at' e2 hm
  obtain ⟨ls, _, rfl⟩ := hv'
  have key : ∀ {c : EcsId}, w.typeMap t = some c → w.PointsAt p e c → RefAligned { w with locks := ls } base t p :=
    fun y1 y2 => refAligned_of hw hb y1 y2
  cases x with
  | ids => rcases hr with rfl | rfl <;> cases x2
  | «mut» t' =>
    obtain ⟨p', c, rfl, y1, y2⟩ := x2
    rcases hr with hr | hr <;> cases hr
    exact key y1 y2
  | ref t' =>
    obtain ⟨p', c, rfl, y1, y2⟩ := x2
    rcases hr with hr | hr <;> cases hr
    exact key y1 y2

/-- C56 for the references of `StaticQuery::get`, for types that are not zero sized. -/
theorem C56_get_refs_partial {w v v' : World} (hw : Reachable w) (hv : SameButLocks w v) {ps : List Param} {q : StaticQuery} (hq : query ps v = .ok q v')
    {e : EcsId} (he : e.uindex < w.entities.generations.length) {base : Nat → Nat → Nat} (hb : w.BasesAligned base) :
    ∃ r, q.get v' e = .ok r ∧ ∀ items, r = some items → ∀ i ∈ items, ∀ t p, RefersTo i t p → RefAligned v' base t p := by
  obtain ⟨r, h1, _, h2⟩ := C13_get_exact hw hv hq he
  refine ⟨r, h1, fun items hitems i hi' t p hr => ?_⟩
  have hv' := hv.trans' (query_ok hq).2.1
  obtain ⟨m, hm⟩ := List.mem_iff_getElem?.1 hi'
  obtain ⟨x, x1, x2⟩ := Pairs.at' (h2 items hitems) hm
  obtain ⟨ls, _, rfl⟩ := hv'
  have key : ∀ {c : EcsId}, w.typeMap t = some c → w.PointsAt p e c → RefAligned { w with locks := ls } base t p :=
    fun y1 y2 => refAligned_of hw hb y1 y2
  cases x with
  | ids => rcases hr with rfl | rfl <;> cases x2
  | «mut» t' =>
    obtain ⟨p', c, rfl, y1, y2⟩ := x2
    rcases hr with hr | hr <;> cases hr
    exact key y1 y2
  | ref t' =>
    obtain ⟨p', c, rfl, y1, y2⟩ := x2
    rcases hr with hr | hr <;> cases hr
    exact key y1 y2

/-- C56 for the pointers of a dynamic query, for components that are not zero sized and whose size is a multiple of the alignment. -/
theorem C56_dynamic_ptrs_partial {w v v' : World} (hw : Reachable w) (hv : SameButLocks w v) (hlen : w.archetypes.length < 2 ^ 32) {fs : List Fetch}
    (hne : fs ≠ []) (hc : Calm w ∨ ∀ f ∈ fs, ∀ c, f.Of c → w.Row c) {q : DynQuery} (hq : queryDynamic fs v = .ok q v') {base : Nat → Nat → Nat}
    (hb : w.BasesAligned base) :
    ∃ (it : DynIter) (rows : List (List Ptr)), q.iter v' = .ok it ∧ Produces (fun s => DynIter.next v' s) it rows ∧
      ∀ row ∈ rows, Pairs (fun f p => ∀ c, f.Of c → ∀ m, v'.InfoIs c m → m.layout.size ≠ 0 → m.layout.align ∣ m.layout.size → v'.PtrAligned base p m.layout) fs row := by
  obtain ⟨it, es, rows, h1, h2, h3, h4, h5⟩ := C15_iter_exact hw hv hlen hne hc hq
  refine ⟨it, rows, h1, h2, fun row hrow => ?_⟩
  have hv' := hv.trans' (queryDynamic_ok hq).2.1
  obtain ⟨n, hn⟩ := List.mem_iff_getElem?.1 hrow
  obtain ⟨e, e1, e2⟩ := Pairs.at' h5 hn
  obtain ⟨ls, _, rfl⟩ := hv'
  have key : ∀ {f : Fetch} {p : Ptr}, FetchAt w e f p → ∀ c, f.Of c → ∀ m, InfoIs { w with locks := ls } c m → m.layout.size ≠ 0 →
      m.layout.align ∣ m.layout.size → PtrAligned { w with locks := ls } base p m.layout := by
    intro f p hp c hc m hm hz hd
    rcases hc with rfl | rfl
    · exact C56_pointer_partial hw hb hp hm hz hd
    · exact C56_pointer_partial hw hb hp hm hz hd
  exact e2.imp (fun _ _ _ hp => key hp)

theorem points_of_get {w : World} (hw : Reachable w) {e c : EcsId} {p : Ptr} (h : w.getComponentMutDynamic e c = .ok (some p)) : w.PointsAt p e c := by
  rcases getComponentMut_spec hw.sound.inv e c with ⟨h1, _⟩ | ⟨h1, _⟩ | ⟨h1, _⟩ | ⟨p', h1, h2⟩
  · rw [h] at h1; cases h1
  · rw [h] at h1; cases h1
  · rw [h] at h1; cases h1
  · rw [h] at h1; injection h1 with h1; injection h1 with h1; subst h1
    exact h2

/-- C56 for `get_component_mut_dynamic`. -/
theorem C56_component_ptr_partial {w : World} (hw : Reachable w) {base : Nat → Nat → Nat} (hb : w.BasesAligned base) {e c : EcsId} {p : Ptr}
    (h : w.getComponentMutDynamic e c = .ok (some p)) {m : ComponentMeta} (hm : w.InfoIs c m) (hz : m.layout.size ≠ 0)
    (hd : m.layout.align ∣ m.layout.size) : w.PtrAligned base p m.layout := by
  exact C56_pointer_partial hw hb (points_of_get hw h) hm hz hd

/-- C56 is violated by every value of a zero sized component with alignment above 1: wherever blocks are, its address is 1. -/
theorem C56_zst_misaligned {w : World} (hw : Reachable w) {base : Nat → Nat → Nat} {p : Ptr} {e c : EcsId} (hp : w.PointsAt p e c)
    {m : ComponentMeta} (hm : w.InfoIs c m) (hz : m.layout.size = 0) (ha : m.layout.align ≠ 1) :
    w.addressOf base p = some 1 ∧ ¬ w.PtrAligned base p m.layout := by
  obtain ⟨k, j, r, v, a, h1, h2, h3, h4, h5, h6⟩ := address_points hw.sound.inv (base := base) hp hm
  have hs : v.size = 0 := by unfold UVec.size; rw [h5]; exact hz
  have hd : v.data = none := by
    rcases h3.block with ⟨_, h⟩ | ⟨h, _⟩
    · exact h
    · exact absurd hs h
  have h7 : w.addressOf base p = some 1 := by
    rw [h6]; unfold VecSpec.addr; rw [hd, hs]; rfl
  refine ⟨h7, ?_⟩
  rintro ⟨n, hn, hdv⟩
  rw [h7] at hn; injection hn with hn; subst hn
  exact ha (Nat.dvd_one.1 hdv)

theorem ok_of_toOption {α : Type} {x : Except Fault α} {a : α} (h : x.toOption = some a) : x = .ok a := by
  cases x with
  | error f => cases h
  | ok b => injection h with h; rw [h]

/-- Every alignment divides `2 ^ 63`. -/
theorem bases_aligned (w : World) : w.BasesAligned (fun _ _ => 2 ^ 63) := by
  intro k j a x _ _
  unfold VecSpec.Aligned
  split
  · trivial
  · rename_i l _
    exact Nat.pow_dvd_pow 2 (by have := l.alignLog.isLt; omega)

/-- A zero sized type with alignment 8, such as `[u64; 0]`. -/
def tE : Ty := ⟨9, ⟨0, 3⟩⟩

theorem zeroAligned_runs : (runP [.spawn .plain [.with tE [], .with tA (val 4 1), .build]] World.new).isSome = true := by decide +kernel
def zeroAligned : World := (runP [.spawn .plain [.with tE [], .with tA (val 4 1), .build]] World.new).get zeroAligned_runs
theorem zeroAligned_reachable : Reachable zeroAligned := runP_reachable .new (Option.some_get zeroAligned_runs).symm

/-- The items a query finds for an entity. -/
def found (ps : List Param) (e : EcsId) (w : World) : Option (List Item) :=
  match query ps w with
  | .ok q w' => (q.get w' e).toOption.join
  | .error _ _ => none

/-- C56 is violated by a program without `unsafe`: after `let e = world.spawn().with::<[u64; 0]>([]).with(1u32).build()`, the call
`world.query::<(&mut [u64; 0],)>().get(e)` returns a reference with address 1 to a type with alignment 8. -/
theorem C56_safe_misaligned : ∃ p, found [.mut tE] (ent 0) zeroAligned = some [.mut tE p] ∧
    ∀ base, zeroAligned.addressOf base p = some 1 ∧ ¬ zeroAligned.PtrAligned base p tE.layout := by
  refine ⟨⟨.storage 1 0, 0⟩, by decide +kernel, fun base => ?_⟩
  have hp : zeroAligned.PointsAt ⟨.storage 1 0, 0⟩ (ent 0) (ent 1) := points_of_get zeroAligned_reachable (ok_of_toOption (by decide +kernel))
  exact C56_zst_misaligned zeroAligned_reachable hp (m := ⟨some (.generic tE), tE.layout⟩) (by decide +kernel) rfl (by decide)

/-- The hypotheses of the partial theorems are met. -/
example : ∃ base p m, demo.BasesAligned base ∧ demo.getComponentMutDynamic (ent 6) (ent 2) = .ok (some p) ∧ demo.InfoIs (ent 2) m ∧ m.layout.size ≠ 0 ∧
    m.layout.align ∣ m.layout.size ∧ m.layout.align = 8 := by
  refine ⟨fun _ _ => 2 ^ 63, ⟨.storage 1 1, 0⟩, ⟨some (.generic tB), tB.layout⟩, bases_aligned _, ok_of_toOption (by decide +kernel), by decide +kernel,
    by decide, ⟨1, rfl⟩, rfl⟩

/-! ### The theorems at work -/

example := C56_pointer_partial demo_reachable (bases_aligned demo) six_B infoB (by decide) ⟨1, rfl⟩
example := C56_static_refs_partial demo_reachable busy_same demo_small (by decide) qA_made (bases_aligned demo)
example := C56_get_refs_partial demo_reachable busy_same qA_made (e := ent 6) (by decide +kernel) (bases_aligned demo)
example := C56_dynamic_ptrs_partial demo_reachable busy_same demo_small (by decide) (.inl demo_calm) dA_made (bases_aligned demo)
example := C56_component_ptr_partial demo_reachable (bases_aligned demo) (e := ent 6) (c := ent 2) (p := ⟨.storage 1 1, 0⟩) (ok_of_toOption (by decide +kernel)) infoB
  (by decide) ⟨1, rfl⟩
example (base : Nat → Nat → Nat) := C56_zst_misaligned zeroAligned_reachable (base := base) (p := ⟨.storage 1 0, 0⟩) (e := ent 0) (c := ent 1)
  (points_of_get zeroAligned_reachable (ok_of_toOption (by decide +kernel))) (m := ⟨some (.generic tE), tE.layout⟩) (by decide +kernel) rfl (by decide)

end Ellecs.WorldSpec
