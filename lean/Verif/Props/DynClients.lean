import Verif.Proofs.DynClients
import Verif.Props.Clients
/-!
# C70: the benchmarks of dynamic components do what they say

The programs are those of `Spec/DynClients.lean`.  First for all metadata, rows, queries and arithmetic, then for those of
the repository.  Sizes and alignments of types are those of the sources; floating point arithmetic is any function on
bytes.
-/
namespace Ellecs.WorldSpec
open World Demo

/-- From the logic to the tables. -/
theorem leavesDyn_of {s m : Nat} (hs : s < 2 ^ 29) (hm : m < 2 ^ 32) {p : Session (List EcsId × List EcsId)} {ms : List ComponentMeta} {rs : List IdxRow}
    (h : p.wp s Ledger.new fun r l => r.1.length = ms.length ∧ r.2.length = rs.length ∧ (r.1 ++ r.2).Nodup ∧ l.types = [] ∧
      l.book = r.1.zip (ms.map (⟨·, []⟩)) ++ r.2.zip (rs.map fun x => ⟨ComponentMeta.unit, x.cells r.1⟩) ∧ l.shapes.length ≤ m) : LeavesDyn p ms rs m := by
  refine ⟨?_, ?_⟩
  · obtain ⟨r, w, _, h1, _⟩ := C69_sound hs h
    exact ⟨r, w, h1⟩
  · intro r w he
    obtain ⟨⟨ids, es⟩, l, rfl, h1, h2, h3, h4, h5, h6, h7, h8, h9⟩ := C69_every hs h he
    exact ⟨ids, es, l, rfl, h4, h5, h6, h1, h2, h7, h8, Nat.le_trans (h3 (by omega)) h9⟩

theorem compatible_idx {ids : List EcsId} (hn : ids.Nodup) (qs : List (Bool × Nat)) : (∀ q ∈ qs, q.2 < ids.length) → (qs.map Prod.snd).Nodup →
    CompatibleIds (qs.map (idxFetch ids)) := by
  intro hq hd
  unfold CompatibleIds
  rw [List.pairwise_map]
  refine List.Pairwise.imp_of_mem ?_ (List.pairwise_map.1 hd)
  intro a b ha hb hab c
  have hne : IdxRow.idAt ids a.2 ≠ IdxRow.idAt ids b.2 := fun h => hab (idAt_inj hn (hq a ha) (hq b hb) h)
  obtain ⟨x, i⟩ := a
  obtain ⟨y, j⟩ := b
  cases x <;> cases y <;> simp only [idxFetch] <;> refine ⟨fun h => ?_, fun h => ?_⟩ <;>
    first | (cases h; done) | (injection h with h; subst h; first | (refine ⟨fun g => ?_, fun g => ?_⟩ <;> first | (injection g with g; exact hne g.symm) | (cases g; done)) | (intro g; first | (injection g with g; exact hne g.symm) | (cases g; done)))

/-- C70: ids for components with the metadata `ms` are made, the rows `rs` are spawned, then the loop runs `n` times. -/
theorem C70_iter {s : Nat} (hs : s < 2 ^ 29) {ms : List ComponentMeta} (hms : ∀ m ∈ ms, m.layout.size ≤ s) {rs : List IdxRow} (hrs : ∀ r ∈ rs, DynRow ms r)
    {shapes : List (List Nat)} (hsh : ∀ r ∈ rs, r.map Prod.fst ∈ shapes) (hl : shapes.length + 1 < 2 ^ 32) (hn : ms.length + rs.length ≤ 2 ^ 32) (hk : ms.length < 2 ^ 32)
    {qs : List (Bool × Nat)} (hq : qs ≠ []) (hqi : ∀ q ∈ qs, q.2 < ms.length) (hqd : (qs.map Prod.snd).Nodup)
    {f : List AWorld.Seen → List (Option Bytes)}
    (hf : ∀ (ss : List AWorld.Seen) (i k : Nat) (m : ComponentMeta) (bs : Bytes), qs[i]? = some (true, k) → ms[k]? = some m → (f ss)[i]? = some (some bs) → bs.length = m.layout.size)
    (n : Nat) : LeavesDyn (.dynBench ms rs qs f n) ms (rs.map (Nat.repeat (IdxRow.run qs f) n)) (shapes.length + 1) := by
  have hir : ∀ r ∈ rs, InRange ms.length r := fun r hr x hx => by
    obtain ⟨m, h, _⟩ := (hrs r hr).size x hx
    exact (List.getElem?_eq_some_iff.1 h).1
  refine leavesDyn_of hs hl ((C69_bind _ _).2 (spawnMetas_wp ms hms (by show 0 + _ ≤ _; omega) List.mem_cons_self fun ids hids => ?_))
  have hlen : ids.length = (ms.map fun m => (⟨m, []⟩ : Entry)).length := by rw [List.length_map]; exact hids.len
  have hbook : ∀ {i : Nat} {m : ComponentMeta} (b : Book), ms[i]? = some m →
      (ids.zip (ms.map fun m => (⟨m, []⟩ : Entry)) ++ b).lookup (IdxRow.idAt ids i) = some ⟨m, []⟩ := by
    intro i m b h
    rw [lookup_append', zip_lookup_at hids.nodup (x := ⟨m, []⟩) (by rw [List.getElem?_map, h]; rfl) hlen]
    rfl
  have hkeys : ∀ r ∈ rs, ((r.cells ids).map Prod.fst).Nodup ∧ (r.cells ids).map Prod.fst = (r.map Prod.fst).map (IdxRow.idAt ids) := by
    intro r hr
    have h1 : (r.cells ids).map Prod.fst = (r.map Prod.fst).map (IdxRow.idAt ids) := by
      unfold IdxRow.cells; rw [List.map_map, List.map_map]; rfl
    refine ⟨?_, h1⟩
    rw [h1]
    unfold List.Nodup
    rw [List.pairwise_map]
    refine List.Pairwise.imp_of_mem ?_ (hrs r hr).nodup
    intro a b ha hb hab h
    obtain ⟨x, hx, rfl⟩ := List.mem_map.1 ha
    obtain ⟨y, hy, rfl⟩ := List.mem_map.1 hb
    exact hab (idAt_inj hids.nodup (by rw [hids.len]; exact hir r hr x hx) (by rw [hids.len]; exact hir r hr y hy) h)
  refine (C69_bind _ _).2 (spawnRows_wp _ ?_ (by simp only [List.length_map]; show 0 + _ + _ ≤ _; omega) fun es hes => ?_)
  · intro r hr
    obtain ⟨r0, h0, rfl⟩ := List.mem_map.1 hr
    refine ⟨(hkeys r0 h0).1, ?_, ?_⟩
    · have : (r0.map Prod.fst).length ≤ (List.range ms.length).length := (hrs r0 h0).nodup.length_le_of_subset fun i hi => by
        obtain ⟨x, hx, rfl⟩ := List.mem_map.1 hi
        exact List.mem_range.2 (hir r0 h0 x hx)
      simp only [List.length_map, List.length_range] at this
      show (r0.map _).length < _
      rw [List.length_map]
      omega
    · intro x hx
      obtain ⟨y, hy, rfl⟩ := List.mem_map.1 hx
      obtain ⟨m, h1, h2⟩ := (hrs r0 h0).size y hy
      refine ⟨⟨m, []⟩, ?_, h2⟩
      have := hbook [] h1
      rw [List.append_nil] at this
      exact this
  have hes' : es.length = rs.length := by rw [hes.len, List.length_map]
  have hne : (ids ++ es).Nodup := by
    rw [List.nodup_append]
    refine ⟨hids.nodup, hes.nodup, ?_⟩
    intro x hx y hy he
    subst he
    refine (hes.new x hy).1 ?_
    show x ∈ (ids.zip _).map Prod.fst
    rw [List.map_fst_zip (by rw [List.length_map, hids.len]; exact Nat.le_refl _)]
    exact hx
  have hshapes : ((rs.map (IdxRow.cells ids)).foldl (fun S r => Ledger.addShape (r.map Prod.fst) S) Ledger.new.shapes).length ≤ shapes.length + 1 := by
    have := fold_shapes (D := [] :: shapes.map fun x => x.map (IdxRow.idAt ids)) (rs.map (IdxRow.cells ids)) (S := [[]]) ?_ (by simp) ?_
    · rw [List.length_cons, List.length_map] at this
      exact this
    · intro r hr
      obtain ⟨r0, h0, rfl⟩ := List.mem_map.1 hr
      exact List.mem_cons_of_mem _ (List.mem_map.2 ⟨_, hsh r0 h0, (hkeys r0 h0).2.symm⟩)
    · intro x hx
      rw [List.mem_singleton.1 hx]
      exact List.mem_cons_self
  have hrk : ∀ (i : Nat) (r : IdxRow), (Nat.repeat (IdxRow.run qs f) i r).map Prod.fst = r.map Prod.fst := by
    intro i r
    induction i with
    | zero => rfl
    | succ i ih => exact run_idx_keys.trans ih
  refine (C69_bind _ _).2 (C69_mono _ (fun _ l h => ?_)
    (C69_times _ (fun i l => l.types = [] ∧ l.shapes.length ≤ shapes.length + 1 ∧ l.book = ids.zip (ms.map (⟨·, []⟩)) ++
      es.zip ((rs.map (Nat.repeat (IdxRow.run qs f) i)).map fun x => ⟨ComponentMeta.unit, x.cells ids⟩)) ?_ n (i := 0) ?_))
  · obtain ⟨h1, h2, h3⟩ := h
    exact ⟨hids.len, by rw [List.length_map]; exact hes', hne, h1, by simpa using h3, h2⟩
  · rintro i l ⟨h1, h2, h3⟩
    refine ⟨by simpa using hq, compatible_idx hids.nodup qs (by rw [hids.len]; exact hqi) hqd, ?_, by omega, ?_, fun rows _ => ⟨h1, h2, ?_⟩⟩
    · intro ss j c en bs g1 g2 g3
      rw [List.getElem?_map] at g1
      obtain ⟨⟨b, k⟩, g4, g5⟩ := Option.map_eq_some_iff.1 g1
      have hki := hqi _ (List.mem_of_getElem? g4)
      cases b with
      | false => cases g5
      | true =>
        injection g5 with g5
        subst g5
        rw [h3, hbook _ (List.getElem?_eq_getElem hki)] at g2
        cases g2
        exact hf ss j k _ bs g4 (List.getElem?_eq_getElem hki) g3
    · intro x hx c hc
      obtain ⟨⟨b, k⟩, g1, rfl⟩ := List.mem_map.1 hx
      have hki := hqi _ g1
      have : c = IdxRow.idAt ids k := by
        cases b
        · rcases hc with hc | hc <;> cases hc; rfl
        · rcases hc with hc | hc <;> cases hc; rfl
      subst this
      show _ ∈ l.book.map Prod.fst
      rw [h3, List.map_append, List.map_fst_zip (Nat.le_of_eq hlen)]
      exact List.mem_append_left _ (idAt_mem (by rw [hids.len]; exact hki))
    · show Book.run _ f l.book = _
      rw [h3]
      refine (mapCells_append (b := ids.zip _)).trans ?_
      have e1 : Book.run (qs.map (idxFetch ids)) f (ids.zip (ms.map fun m => (⟨m, []⟩ : Entry))) = ids.zip (ms.map fun m => (⟨m, []⟩ : Entry)) := by
        rw [run_zip (g := id), List.map_id]
        intro m _ e
        rw [run_empty]; rfl
      have e2 : Book.run (qs.map (idxFetch ids)) f (es.zip ((rs.map (Nat.repeat (IdxRow.run qs f) i)).map fun x => (⟨ComponentMeta.unit, x.cells ids⟩ : Entry))) =
          es.zip ((rs.map (Nat.repeat (IdxRow.run qs f) (i + 1))).map fun x => (⟨ComponentMeta.unit, x.cells ids⟩ : Entry)) := by
        have : rs.map (Nat.repeat (IdxRow.run qs f) (i + 1)) = (rs.map (Nat.repeat (IdxRow.run qs f) i)).map (IdxRow.run qs f) := by rw [List.map_map]; rfl
        rw [this]
        refine run_zip fun r hr e => ?_
        obtain ⟨r0, h0, rfl⟩ := List.mem_map.1 hr
        rw [run_cells hids.nodup (inRange_keys (hrk i r0) (by rw [hids.len]; exact hir r0 h0)) (by rw [hids.len]; exact hqi)]
      exact congr (congrArg _ e1) e2
  · refine ⟨rfl, hshapes, ?_⟩
    show (([] : Book) ++ _) ++ _ = _
    rw [List.nil_append, List.map_map]
    have : rs.map (Nat.repeat (IdxRow.run qs f) 0) = rs := by
      show rs.map (fun r => r) = rs
      exact List.map_id' rs
    rw [this]
    rfl

/-! ### the programs of the repository -/

/-- `ComponentMeta::from_size_align(4, 4)` -/
def meta4 : ComponentMeta := ⟨none, f32⟩

example : ComponentMeta.fromSizeAlign 4 4 = .ok meta4 := rfl

theorem run_last_idx {g : Bytes → Bytes} {k : Nat} {pre : IdxRow} {v : Bytes} (h : k ∉ pre.map Prod.fst) :
    IdxRow.run [(true, k)] (onOne g) (pre ++ [(k, v)]) = pre ++ [(k, g v)] := by
  have h1 : (pre ++ [(k, v)]).lookup k = some v := by rw [lookup_append', lookup_none.2 h]; simp
  unfold IdxRow.run IdxRow.see
  rw [List.mapM_cons, h1]
  show IdxRow.put (pre ++ [(k, v)]) k (g v) = _
  unfold IdxRow.put
  rw [List.map_append]
  have : pre.map (fun x => (x.1, if x.1 = k then g v else x.2)) = pre.map id :=
    List.map_congr_left fun x hx => by rw [if_neg fun he => h (List.mem_map.2 ⟨x, hx, he⟩)]; rfl
  rw [this, List.map_id]
  simp

/-- C70: entities with any other components and `Data`, the last of the ids, which every run of the loop changes by `g`. -/
theorem C70_data {s : Nat} (hs : s < 2 ^ 29) {ms : List ComponentMeta} (hms : ∀ m ∈ ms, m.layout.size ≤ s) {D : ComponentMeta} (hD : D.layout.size ≤ s)
    {one : Bytes} (hone : one.length = D.layout.size) {g : Bytes → Bytes} (hg : ∀ v, (g v).length = D.layout.size)
    {pres : List IdxRow} (hp : ∀ r ∈ pres, DynRow ms r) {shapes : List (List Nat)} (hsh : ∀ r ∈ pres, r.map Prod.fst ∈ shapes) (hl : shapes.length + 1 < 2 ^ 32)
    (hn : ms.length + 1 + pres.length < 2 ^ 32) (n : Nat) :
    LeavesDyn (.dynBench (ms ++ [D]) (pres.map (· ++ [(ms.length, one)])) [(true, ms.length)] (onOne g) n) (ms ++ [D])
      (pres.map (· ++ [(ms.length, Nat.repeat g n one)])) (shapes.length + 1) := by
  have hlt : ∀ r ∈ pres, ms.length ∉ r.map Prod.fst := by
    intro r hr h
    obtain ⟨x, hx, he⟩ := List.mem_map.1 h
    obtain ⟨m, h1, _⟩ := (hp r hr).size x hx
    have := (List.getElem?_eq_some_iff.1 h1).1
    omega
  have := C70_iter hs (ms := ms ++ [D]) ?_ (rs := pres.map (· ++ [(ms.length, one)])) ?_ (shapes := shapes.map (· ++ [ms.length])) ?_ (by rw [List.length_map]; exact hl)
    (by simp only [List.length_append, List.length_map, List.length_cons, List.length_nil]; omega)
    (by simp only [List.length_append, List.length_cons, List.length_nil]; omega) (qs := [(true, ms.length)]) (by simp) (by simp) (by simp) (f := onOne g) ?_ n
  · rw [List.map_map, List.length_map] at this
    have h2 : pres.map (Nat.repeat (IdxRow.run [(true, ms.length)] (onOne g)) n ∘ (· ++ [(ms.length, one)])) = pres.map (· ++ [(ms.length, Nat.repeat g n one)]) :=
      List.map_congr_left fun r hr => repeat_map (m := fun v => r ++ [(ms.length, v)]) (fun v => run_last_idx (hlt r hr)) one n
    rw [h2] at this
    exact this
  · intro m hm
    rcases List.mem_append.1 hm with hm | hm
    · exact hms m hm
    · rw [List.mem_singleton.1 hm]; exact hD
  · intro r hr
    obtain ⟨r0, h0, rfl⟩ := List.mem_map.1 hr
    refine ⟨?_, ?_⟩
    · rw [List.map_append, List.nodup_append]
      refine ⟨(hp r0 h0).nodup, by simp, ?_⟩
      intro x hx y hy he
      simp only [List.map_cons, List.map_nil, List.mem_singleton] at hy
      rw [he, hy] at hx
      exact hlt r0 h0 hx
    · intro x hx
      rcases List.mem_append.1 hx with hx | hx
      · obtain ⟨m, h1, h2⟩ := (hp r0 h0).size x hx
        refine ⟨m, ?_, h2⟩
        rw [List.getElem?_append_left (List.getElem?_eq_some_iff.1 h1).1]
        exact h1
      · rw [List.mem_singleton.1 hx]
        exact ⟨D, by simp, hone⟩
  · intro r hr
    obtain ⟨r0, h0, rfl⟩ := List.mem_map.1 hr
    rw [List.map_append]
    exact List.mem_map.2 ⟨_, hsh r0 h0, rfl⟩
  · intro ss i k m bs h1 h2 h3
    rcases i with _ | i
    · cases h1
      rw [List.getElem?_append_right (Nat.le_refl _)] at h2
      simp at h2
      subst h2
      unfold onOne at h3
      split at h3
      · cases h3; exact hg _
      · cases h3
    · cases h1

/-- C70: frag_iter_20, frag_iter_200 and frag_iter_2000 (bench_dynamic.rs:71-219), with `k` entities for each of the 26
components. -/
theorem C70_frag_iter {k : Nat} (hk : k ≤ 2000) {D : Ty} (hD : D.layout = f32) {zero one : Bytes} (h0 : zero.length = 4) (h1 : one.length = 4)
    {mul2 : Bytes → Bytes} (h2 : ∀ v, (mul2 v).length = 4) (n : Nat) :
    LeavesDyn (.dynBench (List.replicate 26 meta4 ++ [.fromGeneric D]) ((List.range 26).flatMap fun i => List.replicate k [(i, zero), (26, one)]) [(true, 26)] (onOne mul2) n)
      (List.replicate 26 meta4 ++ [.fromGeneric D]) ((List.range 26).flatMap fun i => List.replicate k [(i, zero), (26, Nat.repeat mul2 n one)]) 27 := by
  have hs : (ComponentMeta.fromGeneric D).layout.size = 4 := by show D.layout.size = 4; rw [hD]; rfl
  have := C70_data (s := 4) (by decide) (ms := List.replicate 26 meta4) (by intro m hm; rw [(List.mem_replicate.1 hm).2]; exact Nat.le_refl 4)
    (D := .fromGeneric D) (by rw [hs]; exact Nat.le_refl 4) (one := one) (by rw [hs, h1]) (g := mul2) (by rw [hs]; exact h2)
    (pres := (List.range 26).flatMap fun i => List.replicate k [(i, zero)]) ?_ (shapes := (List.range 26).map ([·])) ?_ (by simp) ?_ n
  · have he : ∀ y : Bytes, ((List.range 26).flatMap fun i => List.replicate k [(i, zero)]).map (· ++ [((List.replicate 26 meta4).length, y)]) =
        (List.range 26).flatMap fun i => List.replicate k [(i, zero), (26, y)] := by
      intro y
      simp only [List.map_flatMap, List.map_replicate, List.length_replicate]
      rfl
    rw [he, he, List.length_map, List.length_range, List.length_replicate] at this
    exact this
  · intro r hr
    obtain ⟨i, hi, hr⟩ := List.mem_flatMap.1 hr
    obtain ⟨_, rfl⟩ := List.mem_replicate.1 hr
    refine ⟨by simp, ?_⟩
    intro x hx
    rw [List.mem_singleton.1 hx]
    exact ⟨meta4, by rw [List.getElem?_replicate, if_pos (List.mem_range.1 hi)], h0⟩
  · intro r hr
    obtain ⟨i, hi, hr⟩ := List.mem_flatMap.1 hr
    obtain ⟨_, rfl⟩ := List.mem_replicate.1 hr
    exact List.mem_map.2 ⟨i, hi, rfl⟩
  · simp only [List.length_flatMap, List.length_replicate, List.map_const', List.length_range, List.sum_replicate_nat]
    omega

/-- C70: frag_iter_20_padding_20 (bench_dynamic.rs:6-69).  Ids 0 to 19 are those of `bloat_cs`, 20 to 45 those of
`frag_cs`, 46 is `data_id`. -/
theorem C70_frag_iter_padding {D : Ty} (hD : D.layout = f32) {zero one : Bytes} (h0 : zero.length = 4) (h1 : one.length = 4)
    {mul2 : Bytes → Bytes} (h2 : ∀ v, (mul2 v).length = 4) (n : Nat) :
    LeavesDyn (.dynBench (List.replicate 46 meta4 ++ [.fromGeneric D])
        ((List.range 26).flatMap fun i => List.replicate 20 ((List.range 20).map (·, zero) ++ [(20 + i, zero), (46, one)])) [(true, 46)] (onOne mul2) n)
      (List.replicate 46 meta4 ++ [.fromGeneric D])
      ((List.range 26).flatMap fun i => List.replicate 20 ((List.range 20).map (·, zero) ++ [(20 + i, zero), (46, Nat.repeat mul2 n one)])) 27 := by
  have hs : (ComponentMeta.fromGeneric D).layout.size = 4 := by show D.layout.size = 4; rw [hD]; rfl
  have hkey : ∀ i, (((List.range 20).map (·, zero) : IdxRow) ++ [(20 + i, zero)]).map Prod.fst = List.range 20 ++ [20 + i] := fun i => by
    rw [List.map_append, List.map_map]
    exact congrArg (· ++ [20 + i]) (List.map_id' _)
  have := C70_data (s := 4) (by decide) (ms := List.replicate 46 meta4) (by intro m hm; rw [(List.mem_replicate.1 hm).2]; exact Nat.le_refl 4)
    (D := .fromGeneric D) (by rw [hs]; exact Nat.le_refl 4) (one := one) (by rw [hs, h1]) (g := mul2) (by rw [hs]; exact h2)
    (pres := (List.range 26).flatMap fun i => List.replicate 20 ((List.range 20).map (·, zero) ++ [(20 + i, zero)])) ?_
    (shapes := (List.range 26).map fun i => List.range 20 ++ [20 + i]) ?_ (by simp) ?_ n
  · have he : ∀ y : Bytes, ((List.range 26).flatMap fun i => List.replicate 20 (((List.range 20).map (·, zero) : IdxRow) ++ [(20 + i, zero)])).map
          (· ++ [((List.replicate 46 meta4).length, y)]) =
        (List.range 26).flatMap fun i => List.replicate 20 ((List.range 20).map (·, zero) ++ [(20 + i, zero), (46, y)]) := by
      intro y
      simp only [List.map_flatMap, List.map_replicate, List.length_replicate, List.append_assoc]
      rfl
    rw [he, he, List.length_map, List.length_range, List.length_replicate] at this
    exact this
  · intro r hr
    obtain ⟨i, hi, hr⟩ := List.mem_flatMap.1 hr
    obtain ⟨_, rfl⟩ := List.mem_replicate.1 hr
    have hi := List.mem_range.1 hi
    refine ⟨?_, ?_⟩
    · rw [hkey, List.nodup_append]
      refine ⟨List.nodup_range, by simp, ?_⟩
      intro x hx y hy he
      have := List.mem_range.1 hx
      have := List.mem_singleton.1 hy
      omega
    · intro x hx
      have hlt : x.1 < 46 ∧ x.2 = zero := by
        rcases List.mem_append.1 hx with hx | hx
        · obtain ⟨j, hj, rfl⟩ := List.mem_map.1 hx
          exact ⟨Nat.lt_trans (List.mem_range.1 hj) (by decide), rfl⟩
        · rw [List.mem_singleton.1 hx]; exact ⟨by show 20 + i < 46; omega, rfl⟩
      exact ⟨meta4, by rw [List.getElem?_replicate, if_pos hlt.1], by rw [hlt.2]; exact h0⟩
  · intro r hr
    obtain ⟨i, hi, hr⟩ := List.mem_flatMap.1 hr
    obtain ⟨_, rfl⟩ := List.mem_replicate.1 hr
    exact List.mem_map.2 ⟨i, hi, (hkey i).symm⟩
  · simp only [List.length_flatMap, List.length_replicate, List.map_const', List.length_range, List.sum_replicate_nat]
    omega

/-- C70: simple_iter (bench_dynamic.rs:221-296).  After `n` runs the velocity was added `n` times. -/
theorem C70_simple_iter {T P R V : Ty} (hT : T.layout = ⟨64, 2⟩) (hP : P.layout = ⟨12, 2⟩) (hR : R.layout = ⟨12, 2⟩) (hV : V.layout = ⟨12, 2⟩)
    {m x : Bytes} (hm : m.length = 64) (hx : x.length = 12) {add : Bytes → Bytes → Bytes} (ha : ∀ p v, (add p v).length = 12) (n : Nat) :
    LeavesDyn (.dynBench [.fromGeneric T, .fromGeneric P, .fromGeneric R, .fromGeneric V] (List.replicate 10000 [(0, m), (1, x), (2, x), (3, x)])
        [(true, 1), (true, 3)] (addTwo add) n)
      [.fromGeneric T, .fromGeneric P, .fromGeneric R, .fromGeneric V] (List.replicate 10000 [(0, m), (1, Nat.repeat (add · x) n x), (2, x), (3, x)]) 2 := by
  have hTs : (ComponentMeta.fromGeneric T).layout.size = 64 := by show T.layout.size = 64; rw [hT]
  have hPs : (ComponentMeta.fromGeneric P).layout.size = 12 := by show P.layout.size = 12; rw [hP]
  have hRs : (ComponentMeta.fromGeneric R).layout.size = 12 := by show R.layout.size = 12; rw [hR]
  have hVs : (ComponentMeta.fromGeneric V).layout.size = 12 := by show V.layout.size = 12; rw [hV]
  have := C70_iter (s := 64) (by decide) (ms := [.fromGeneric T, .fromGeneric P, .fromGeneric R, .fromGeneric V]) ?_
    (rs := List.replicate 10000 [(0, m), (1, x), (2, x), (3, x)]) ?_ (shapes := [[0, 1, 2, 3]]) ?_ (by simp) (by rw [List.length_replicate]; show 4 + 10000 ≤ _; decide) (by simp)
    (qs := [(true, 1), (true, 3)]) (by simp) (by simp) (by simp) (f := addTwo add) ?_ n
  · rw [List.map_replicate, repeat_map (m := fun p => [(0, m), (1, p), (2, x), (3, x)]) (G := (add · x)) (fun p => rfl)] at this
    exact this
  · intro c hc
    simp only [List.mem_cons, List.not_mem_nil, or_false] at hc
    rcases hc with rfl | rfl | rfl | rfl <;> omega
  · intro r hr
    obtain ⟨_, rfl⟩ := List.mem_replicate.1 hr
    refine ⟨by simp, ?_⟩
    intro y hy
    simp only [List.mem_cons, List.not_mem_nil, or_false] at hy
    rcases hy with rfl | rfl | rfl | rfl
    · exact ⟨_, rfl, by rw [hTs]; exact hm⟩
    · exact ⟨_, rfl, by rw [hPs]; exact hx⟩
    · exact ⟨_, rfl, by rw [hRs]; exact hx⟩
    · exact ⟨_, rfl, by rw [hVs]; exact hx⟩
  · intro r hr
    obtain ⟨_, rfl⟩ := List.mem_replicate.1 hr
    exact List.mem_cons_self
  · intro ss i k c bs h1 h2 h3
    unfold addTwo at h3
    split at h3
    · rcases i with _ | _ | i
      · cases h1; cases h2; cases h3; rw [hPs]; exact ha _ _
      · cases h3
      · cases h3
    · cases h3

/-- C70: simple_large_iter (bench_dynamic.rs:298-365). -/
theorem C70_large_iter {F : Ty} (hF : F.layout = f32) {one : Bytes} (h1 : one.length = 4) {add : Bytes → Bytes → Bytes} (ha : ∀ a b, (add a b).length = 4) (n : Nat) :
    LeavesDyn (.dynBench (List.replicate 8 (.fromGeneric F)) (List.replicate 10000 ((List.range 8).map (·, one)))
        [(true, 0), (false, 1), (true, 2), (false, 3), (true, 4), (false, 5), (true, 6), (false, 7)] (addFour add) n)
      (List.replicate 8 (.fromGeneric F))
      (List.replicate 10000 ((List.range 8).map fun i => (i, if i % 2 = 0 then Nat.repeat (add · one) n one else one))) 2 := by
  have hs : (ComponentMeta.fromGeneric F).layout.size = 4 := by show F.layout.size = 4; rw [hF]; rfl
  have := C70_iter (s := 4) (by decide) (ms := List.replicate 8 (.fromGeneric F)) (by intro c hc; rw [(List.mem_replicate.1 hc).2, hs]; exact Nat.le_refl 4)
    (rs := List.replicate 10000 ((List.range 8).map (·, one))) ?_ (shapes := [List.range 8]) ?_ (by simp) (by simp only [List.length_replicate]; decide) (by simp)
    (qs := [(true, 0), (false, 1), (true, 2), (false, 3), (true, 4), (false, 5), (true, 6), (false, 7)]) (by simp) (by simp) (by simp) (f := addFour add) ?_ n
  · rw [List.map_replicate] at this
    have h2 := repeat_map (F := IdxRow.run [(true, 0), (false, 1), (true, 2), (false, 3), (true, 4), (false, 5), (true, 6), (false, 7)] (addFour add))
      (m := fun v => (List.range 8).map fun i => (i, if i % 2 = 0 then v else one)) (G := (add · one)) (fun v => rfl) one n
    have h3 : ((List.range 8).map fun i => (i, if i % 2 = 0 then one else one)) = (List.range 8).map (·, one) := rfl
    rw [← h3, h2] at this
    exact this
  · intro r hr
    obtain ⟨_, rfl⟩ := List.mem_replicate.1 hr
    refine ⟨by show (List.range 8).Nodup; exact List.nodup_range, ?_⟩
    intro y hy
    obtain ⟨i, hi, rfl⟩ := List.mem_map.1 hy
    exact ⟨_, by rw [List.getElem?_replicate, if_pos (List.mem_range.1 hi)], by rw [hs]; exact h1⟩
  · intro r hr
    obtain ⟨_, rfl⟩ := List.mem_replicate.1 hr
    exact List.mem_cons_self
  · intro ss i k c bs g1 g2 g3
    rw [(List.mem_replicate.1 (List.mem_of_getElem? g2)).2, hs]
    unfold addFour at g3
    split at g3
    · have := List.mem_of_getElem? g3
      simp only [List.mem_cons, Option.some.injEq, reduceCtorEq, List.not_mem_nil, or_false, false_or] at this
      rcases this with rfl | rfl | rfl | rfl <;> exact ha _ _
    · cases g3

/-! ### cases -/

/-- The bytes are added one by one. -/
def addBytes (a b : Bytes) : Bytes := (List.zipWith (fun x y => x.bind fun x => y.map fun y => x + y) a b ++ val 4 0).take 4

theorem addBytes_length (a b : Bytes) : (addBytes a b).length = 4 := by
  simp only [addBytes, val, List.length_take, List.length_append, List.length_replicate]; omega

/-- The hypotheses of `C70_iter` hold of a small program: two ids, two rows of different shape, and a loop that runs twice
and adds the second component to the first. -/
example : LeavesDyn (.dynBench [meta4, meta4] [[(0, val 4 1), (1, val 4 2)], [(1, val 4 3)]] [(true, 0), (false, 1)] (addTwo addBytes) 2) [meta4, meta4]
    [[(0, val 4 5), (1, val 4 2)], [(1, val 4 3)]] 3 := by
  refine C70_iter (s := 4) (by decide) (by simp [meta4, f32]) (rs := [[(0, val 4 1), (1, val 4 2)], [(1, val 4 3)]]) ?_ (shapes := [[0, 1], [1]]) (by simp) (by decide)
    (by decide) (by decide) (qs := [(true, 0), (false, 1)]) (by decide) (by simp) (by decide) (f := addTwo addBytes) ?_ 2
  · intro r hr
    simp only [List.mem_cons, List.not_mem_nil, or_false] at hr
    rcases hr with rfl | rfl <;> exact ⟨by decide, by simp [meta4, f32, val]⟩
  · intro ss i k m bs h1 h2 h3
    unfold addTwo at h3
    split at h3
    · rcases i with _ | _ | i
      · cases h1; cases h2; cases h3; exact addBytes_length _ _
      · cases h3
      · cases h3
    · cases h3

example : ∃ rs, LeavesDyn (.dynBench (List.replicate 26 meta4 ++ [.fromGeneric ⟨0, f32⟩]) ((List.range 26).flatMap fun i => List.replicate 2000 [(i, val 4 0), (26, one32)])
    [(true, 26)] (onOne (mix 4 one32)) 7) (List.replicate 26 meta4 ++ [.fromGeneric ⟨0, f32⟩]) rs 27 :=
  ⟨_, C70_frag_iter (by decide) rfl rfl rfl (fun v => by simp only [mix, val, List.length_take, List.length_append, List.length_replicate]; omega) 7⟩

example : ∃ p rs, LeavesDyn p (List.replicate 46 meta4 ++ [.fromGeneric ⟨0, f32⟩]) rs 27 :=
  ⟨_, _, C70_frag_iter_padding rfl (zero := val 4 0) (one := one32) rfl rfl (mul2 := mix 4 one32)
    (fun v => by simp only [mix, val, List.length_take, List.length_append, List.length_replicate]; omega) 7⟩

example : ∃ p rs, LeavesDyn p [.fromGeneric ⟨0, ⟨64, 2⟩⟩, .fromGeneric ⟨1, ⟨12, 2⟩⟩, .fromGeneric ⟨2, ⟨12, 2⟩⟩, .fromGeneric ⟨3, ⟨12, 2⟩⟩] rs 2 :=
  ⟨_, _, C70_simple_iter rfl rfl rfl rfl (m := val 64 1) (x := val 12 1) rfl rfl (add := mix 12)
    (fun p v => by simp only [mix, val, List.length_take, List.length_append, List.length_replicate]; omega) 7⟩

example : ∃ p rs, LeavesDyn p (List.replicate 8 (.fromGeneric ⟨0, f32⟩)) rs 2 :=
  ⟨_, _, C70_large_iter rfl (one := one32) rfl (add := mix 4)
    (fun p v => by simp only [mix, val, List.length_take, List.length_append, List.length_replicate]; omega) 7⟩

end Ellecs.WorldSpec
