import Verif.Proofs.Clients
/-!
# C68: the playground and the benchmarks do what they say

The programs are those of `Spec/Clients.lean`.  First for all rows, types and arithmetic, then for the rows of the
repository.  Sizes and alignments of types are those of the sources (`f32` has 4 bytes, `Vector3<f32>` 12, `Matrix4<f32>`
64); the `TypeId`s are any different ones, floating point arithmetic is any function on bytes.
-/
namespace Ellecs.WorldSpec
open World Demo

/-- From the logic to the tables. -/
theorem leaves_of {sc : Scope} (hsc : sc.Ok) {p : Script (List EcsId)} {rs : List Fields}
    (h : p.wp sc ⟨[], [], 0⟩ fun es sn => Fresh ⟨[], [], 0⟩ es rs.length ∧ sn.db = es.zip rs) : Leaves p rs sc.shapes.length := by
  refine ⟨?_, ?_⟩
  · obtain ⟨es, w, _, h1, _⟩ := C67_sound hsc h
    exact ⟨es, w, h1⟩
  · intro r w he
    obtain ⟨es, sn, rfl, h1, h2, _, h3, h4, h5⟩ := C67_every hsc h he
    exact ⟨es, rfl, h4.len, h4.nodup, h1, h5 ▸ h2, h3⟩

theorem zip_map_run {ps : List Param} {f : List AWorld.Seen → List (Option Bytes)} {g : Fields → Fields} : ∀ {es : List EcsId} {rs : List Fields},
    (∀ r ∈ rs, ∀ e, r.run ps f e = g r) → Db.run ps f (es.zip rs) = es.zip (rs.map g) := by
  intro es
  induction es with
  | nil => intro rs _; rfl
  | cons e es ih =>
    intro rs h
    rcases rs with _ | ⟨r, rs⟩
    · rfl
    · show (e, r.run ps f e) :: Db.run ps f (es.zip rs) = (e, g r) :: es.zip (rs.map g)
      rw [h r List.mem_cons_self, ih fun r' h' => h r' (List.mem_cons_of_mem _ h')]

/-- C68: entities are spawned, then the loop runs `n` times.  `g` is what the body does to a row, `P` what the rows have
in common. -/
theorem C68_iter {sc : Scope} (hsc : sc.Ok) {rs : List Fields} (hrs : ∀ r ∈ rs, sc.Row r) (hn : rs.length + sc.types.length ≤ 2 ^ 32)
    {ps : List Param} {f : List AWorld.Seen → List (Option Bytes)} (hc : Compatible ps) (ha : AsksType ps) (hf : FitsTypes ps f)
    {g : Fields → Fields} {P : Fields → Prop} (hP : ∀ r ∈ rs, P r) (hg : ∀ r, P r → P (g r) ∧ ∀ e, r.run ps f e = g r) (n : Nat) :
    Leaves (.iterBench rs ps f n) (rs.map (Nat.repeat g n)) sc.shapes.length := by
  refine leaves_of hsc ((C67_bind _ _).2 (spawnAll_wp rs hrs (by show 0 + _ + _ ≤ _; omega) fun es hes => ?_))
  refine (C67_bind _ _).2 (C67_mono _ (fun _ sn h => ?_)
    (C67_times _ (fun i sn => sn.db = es.zip (rs.map (Nat.repeat g i)) ∧ ∀ r ∈ rs.map (Nat.repeat g i), P r) ?_ n (i := 0) ?_))
  · exact ⟨⟨by simp [hes.len], hes.nodup, hes.new⟩, by simpa using h.1⟩
  · rintro i sn ⟨h1, h2⟩
    refine ⟨hc, ha, hf, fun rows _ => ⟨?_, ?_⟩⟩
    · show Db.run ps f sn.db = _
      rw [h1, zip_map_run fun r hr => (hg r (h2 r hr)).2, List.map_map]
      rfl
    · intro r hr
      obtain ⟨r0, h3, rfl⟩ := List.mem_map.1 hr
      exact (hg _ (h2 _ (List.mem_map.2 ⟨r0, h3, rfl⟩))).1
  · have : rs.map (Nat.repeat g 0) = rs := by
      show rs.map (fun r => r) = rs
      exact List.map_id' rs
    rw [this]
    exact ⟨rfl, hP⟩

theorem drop_added {r : Fields} {t : Ty} {v : Bytes} (h : r.lookup t = none) : Fields.drop (r ++ [(t, v)]) t = r := by
  unfold Fields.drop
  rw [List.filter_append, List.filter_eq_self.2 ?_]
  · simp
  · intro x hx
    have := lookup_none.1 h
    exact decide_eq_true fun he => this (List.mem_map.2 ⟨x, hx, he⟩)

/-- C68: a component is added to all entities and removed again, `n` times; nothing is left of it. -/
theorem C68_add_remove {sc : Scope} (hsc : sc.Ok) {rs : List Fields} {t : Ty} {v : Bytes} (hv : v.length = t.size)
    (hrs : ∀ r ∈ rs, sc.Row r ∧ r.lookup t = none ∧ sc.Allows (r.map Prod.fst ++ [t])) (hn : rs.length + sc.types.length ≤ 2 ^ 32) (n : Nat) :
    Leaves (.addRemoveBench rs t v n) rs sc.shapes.length := by
  refine leaves_of hsc ((C67_bind _ _).2 (spawnAll_wp rs (fun r hr => (hrs r hr).1) (by show 0 + _ + _ ≤ _; omega) fun es hes => ?_))
  refine (C67_bind _ _).2 (C67_mono _ (fun _ sn h => ?_) (C67_times _ (fun _ sn => sn.db = es.zip rs) ?_ n (i := 0) rfl))
  · exact ⟨hes, h⟩
  · intro _ sn hs
    replace hs : sn.db = es.zip rs := hs
    have hk : (sn.db.map Prod.fst).Nodup := by rw [hs, zip_keys hes.len]; exact hes.nodup
    have hl : es.length = (rs.map (· ++ [(t, v)])).length := by simp [hes.len]
    refine (C67_bind _ _).2 (each_wp (g := (· ++ [(t, v)])) (P := fun r => r ∈ rs) ?_ es rs [] sn _ hes.len (fun r hr => hr) hs hk ?_)
    · intro e r sn Q h1 h2 hQ
      exact ⟨r, h1, (hrs r h2).2.1, hv, (hrs r h2).2.2, hQ⟩
    · refine each_wp (g := fun r => r.drop t) (P := fun r => ∃ r0 ∈ rs, r = r0 ++ [(t, v)]) ?_ es (rs.map (· ++ [(t, v)])) [] _ _ hl ?_ rfl ?_ ?_
      · rintro e r sn Q h1 ⟨r0, h2, rfl⟩ hQ
        refine ⟨_, h1, ?_, ?_, hQ⟩
        · rw [lookup_append', (hrs r0 h2).2.1]; simp
        · rw [drop_added (hrs r0 h2).2.1]; exact (hrs r0 h2).1.allows
      · intro r hr
        obtain ⟨r0, h2, rfl⟩ := List.mem_map.1 hr
        exact ⟨r0, h2, rfl⟩
      · show (([] ++ es.zip (rs.map (· ++ [(t, v)]))).map Prod.fst).Nodup
        rw [List.nil_append, zip_keys hl]; exact hes.nodup
      · show [] ++ es.zip ((rs.map (· ++ [(t, v)])).map fun r => Fields.drop r t) = es.zip rs
        rw [List.nil_append, List.map_map]
        have : rs.map ((fun r => Fields.drop r t) ∘ (· ++ [(t, v)])) = rs.map id :=
          List.map_congr_left fun r hr => drop_added (hrs r hr).2.1
        rw [this, List.map_id]

theorem zip_lookup {es : List EcsId} {rs : List Fields} (hn : es.Nodup) (hl : es.length = rs.length) {e : EcsId} (he : e ∈ es) :
    ∃ r ∈ rs, (es.zip rs).lookup e = some r := by
  obtain ⟨r, hr⟩ := lookup_isSome (l := es.zip rs) (x := e) (by rw [zip_keys hl]; exact he)
  exact ⟨r, (List.of_mem_zip ((lookup_some (by rw [zip_keys hl]; exact hn)).1 hr)).2, hr⟩

/-- C68: all entities are looked up `n` times; `unwrap` never fails and nothing changes. -/
theorem C68_get {sc : Scope} (hsc : sc.Ok) {rs : List Fields} {t : Ty} (hrs : ∀ r ∈ rs, sc.Row r ∧ r.lookup t ≠ none)
    (hn : rs.length + sc.types.length ≤ 2 ^ 32) (n : Nat) : Leaves (.getBench rs t n) rs sc.shapes.length := by
  refine leaves_of hsc ((C67_bind _ _).2 (spawnAll_wp rs (fun r hr => (hrs r hr).1) (by show 0 + _ + _ ≤ _; omega) fun es hes => ?_))
  refine (C67_bind _ _).2 (getAll_wp (fun e he => ?_) ?_)
  · obtain ⟨r, h1, h2⟩ := zip_lookup hes.nodup hes.len he
    exact ⟨r, _, h2, (Option.some_get (Option.isSome_iff_ne_none.2 (hrs r h1).2)).symm⟩
  · exact ⟨hes, rfl⟩

/-- C68: the same when the component that is looked up was added later. -/
theorem C68_padded_get {sc : Scope} (hsc : sc.Ok) {rs : List Fields} {t : Ty} {v : Bytes} (hv : v.length = t.size)
    (hrs : ∀ r ∈ rs, sc.Row r ∧ r.lookup t = none ∧ sc.Allows (r.map Prod.fst ++ [t])) (hn : rs.length + sc.types.length ≤ 2 ^ 32) (n : Nat) :
    Leaves (.paddedGetBench rs t v n) (rs.map (· ++ [(t, v)])) sc.shapes.length := by
  refine leaves_of hsc ((C67_bind _ _).2 (spawnAddAll_wp hv rs hrs (by show 0 + _ + _ ≤ _; omega) fun es hes => ?_))
  have hl : es.length = (rs.map (· ++ [(t, v)])).length := by simp [hes.len]
  refine (C67_bind _ _).2 (getAll_wp (fun e he => ?_) ?_)
  · obtain ⟨r, h1, h2⟩ := zip_lookup hes.nodup hl he
    obtain ⟨r0, h3, rfl⟩ := List.mem_map.1 h1
    exact ⟨_, v, h2, by rw [lookup_append', (hrs r0 h3).2.1]; simp⟩
  · exact ⟨⟨by simp [hes.len], hes.nodup, hes.new⟩, rfl⟩

/-- C68: spawning alone. -/
theorem C68_insert {sc : Scope} (hsc : sc.Ok) {rs : List Fields} (hrs : ∀ r ∈ rs, sc.Row r) (hn : rs.length + sc.types.length ≤ 2 ^ 32) :
    Leaves (.spawnAll rs) rs sc.shapes.length :=
  leaves_of hsc (spawnAll_wp rs hrs (by show 0 + _ + _ ≤ _; omega) fun es hes => ⟨hes, rfl⟩)

/-! ### the rows of the repository -/

/-- The scope of a program that spawns just these rows, and adds just this type. -/
def rowsScope (shapes : List (List Ty)) (types : List Ty) (s : Nat) : Scope := ⟨types, [] :: shapes, s⟩

theorem rowsScope_row {shapes : List (List Ty)} {types : List Ty} {s : Nat} {r : Fields} (hn : (r.map Prod.fst).Nodup) (hs : ∀ x ∈ r, x.2.length = x.1.size)
    (ht : ∀ t ∈ r.map Prod.fst, t ∈ types) (hm : r.map Prod.fst ∈ shapes) : (rowsScope shapes types s).Row r :=
  ⟨hn, hs, ht, r.map Prod.fst, List.mem_cons_of_mem _ hm, fun _ => Iff.rfl⟩

/-- The loop body `|(data,)| data.0 *= 2.` -/
def onOne (g : Bytes → Bytes) : List AWorld.Seen → List (Option Bytes)
  | [.value v] => [some (g v)]
  | _ => []

theorem run_last {g : Bytes → Bytes} {D : Ty} {pre : Fields} {v : Bytes} (h : D ∉ pre.map Prod.fst) (e : EcsId) :
    Fields.run [.mut D] (onOne g) e (pre ++ [(D, v)]) = pre ++ [(D, g v)] := by
  have h1 : (pre ++ [(D, v)]).lookup D = some v := by rw [lookup_append', lookup_none.2 h]; simp
  unfold Fields.run
  rw [see_one h1]
  show Fields.put (pre ++ [(D, v)]) D (g v) = _
  unfold Fields.put
  rw [List.map_append]
  have : pre.map (fun x => if x.1 = D then (D, g v) else x) = pre.map id :=
    List.map_congr_left fun x hx => if_neg fun he => h (List.mem_map.2 ⟨x, hx, he⟩)
  rw [this, List.map_id]
  simp

theorem repeat_last {F : Fields → Fields} {g : Bytes → Bytes} {D : Ty} {pre : Fields} (h : ∀ v, F (pre ++ [(D, v)]) = pre ++ [(D, g v)]) (v : Bytes) (n : Nat) :
    Nat.repeat F n (pre ++ [(D, v)]) = pre ++ [(D, Nat.repeat g n v)] := by
  induction n with
  | zero => rfl
  | succ n ih =>
    show F (Nat.repeat F n _) = _
    rw [ih, h]
    rfl

/-- C68: entities with any other components and `Data`, which every run of the loop changes by `g`. -/
theorem C68_data {types : List Ty} {shapes : List (List Ty)} {s : Nat} (hs : s < 2 ^ 29) (ht : ∀ t ∈ types, t.size ≤ s) (hsh : shapes.length + 1 < 2 ^ 32)
    {D : Ty} {one : Bytes} (hone : one.length = D.size) {g : Bytes → Bytes} (hg : ∀ v, (g v).length = D.size) (hD : D ∈ types)
    {pres : List Fields} (hp : ∀ r ∈ pres, (r.map Prod.fst).Nodup ∧ D ∉ r.map Prod.fst ∧ (∀ x ∈ r, x.2.length = x.1.size ∧ x.1 ∈ types) ∧ r.map Prod.fst ++ [D] ∈ shapes)
    (hn : pres.length + types.length < 2 ^ 32) (n : Nat) :
    Leaves (.iterBench (pres.map (· ++ [(D, one)])) [.mut D] (onOne g) n) (pres.map (· ++ [(D, Nat.repeat g n one)])) (shapes.length + 1) := by
  have hsc : (rowsScope shapes types s).Ok := ⟨hs, ht, by show types.length < _; omega, by show (_ :: shapes).length < _; simpa using hsh, List.mem_cons_self⟩
  have := C68_iter hsc (rs := pres.map (· ++ [(D, one)])) ?_ (by simp only [List.length_map]; show _ + types.length ≤ _; omega)
    (ps := [.mut D]) (f := onOne g) (List.pairwise_singleton _ _) ⟨D, .inl List.mem_cons_self⟩ ?_ (g := Fields.run [.mut D] (onOne g) ⟨0, 0⟩)
    (P := fun r => ∃ pre v, D ∉ pre.map Prod.fst ∧ r = pre ++ [(D, v)]) ?_ ?_ n
  · rw [List.map_map] at this
    have h2 : pres.map (Nat.repeat (Fields.run [.mut D] (onOne g) ⟨0, 0⟩) n ∘ (· ++ [(D, one)])) = pres.map (· ++ [(D, Nat.repeat g n one)]) :=
      List.map_congr_left fun r hr => repeat_last (fun v => run_last (hp r hr).2.1 _) one n
    rw [h2] at this
    exact this
  · intro r hr
    obtain ⟨r0, h1, rfl⟩ := List.mem_map.1 hr
    obtain ⟨h2, h3, h4, h5⟩ := hp r0 h1
    refine rowsScope_row ?_ ?_ ?_ (by simpa using h5)
    · rw [List.map_append, List.nodup_append]
      refine ⟨h2, by simp, ?_⟩
      intro x hx y hy he
      rw [List.map_cons, List.map_nil, List.mem_singleton] at hy
      replace hy : y = D := hy
      rw [he, hy] at hx
      exact h3 hx
    · intro x hx
      rcases List.mem_append.1 hx with hx | hx
      · exact (h4 x hx).1
      · rw [List.mem_singleton.1 hx]; exact hone
    · intro t ht
      obtain ⟨x, hx, rfl⟩ := List.mem_map.1 ht
      rcases List.mem_append.1 hx with hx | hx
      · exact (h4 x hx).2
      · rw [List.mem_singleton.1 hx]; exact hD
  · intro ss i t bs h1 h2
    rcases i with _ | i
    · cases h1
      unfold onOne at h2
      split at h2
      · cases h2; exact hg _
      · cases h2
    · cases h1
  · intro r hr
    obtain ⟨r0, h1, rfl⟩ := List.mem_map.1 hr
    exact ⟨r0, one, (hp r0 h1).2.1, rfl⟩
  · rintro r ⟨pre, v, h1, rfl⟩
    exact ⟨⟨pre, g v, h1, run_last h1 _⟩, fun e => by rw [run_last h1, run_last h1]⟩

/-- The layout of `f32` and of structs with one `f32`. -/
def f32 : Layout := ⟨4, 2⟩

/-- C68: frag_iter_2000, frag_iter_200, frag_iter_20 (bench_static.rs:77-206): `k` entities for each of the types `A` to `Z`,
each with `Data`.  After `n` runs `Data` was doubled `n` times in each, the other components are as they were, and there
are at most 27 tables: one for each of the types, and the one without components. -/
theorem C68_frag_iter {X : List Ty} {D : Ty} {k : Nat} (hX : X.length = 26) (h4 : ∀ t ∈ X, t.layout = f32) (hD : D.layout = f32) (hd : D ∉ X)
    (hk : k ≤ 2000) {zero one : Bytes} (h0 : zero.length = 4) (h1 : one.length = 4) {mul2 : Bytes → Bytes} (h2 : ∀ v, (mul2 v).length = 4) (n : Nat) :
    Leaves (.iterBench (X.flatMap fun x => List.replicate k [(x, zero), (D, one)]) [.mut D] (onOne mul2) n)
      (X.flatMap fun x => List.replicate k [(x, zero), (D, Nat.repeat mul2 n one)]) 27 := by
  have hs : ∀ t : Ty, t.layout = f32 → t.size = 4 := fun t h => by show t.layout.size = 4; rw [h]; rfl
  have := C68_data (types := D :: X) (shapes := X.map fun x => [x, D]) (s := 4) (by decide) (by
      intro t ht
      rcases List.mem_cons.1 ht with rfl | ht
      · rw [hs _ hD]; exact Nat.le_refl _
      · rw [hs _ (h4 t ht)]; exact Nat.le_refl _) (by simp [hX]) (D := D) (one := one) (by rw [hs _ hD, h1]) (g := mul2)
    (by rw [hs _ hD]; exact h2) List.mem_cons_self (pres := X.flatMap fun x => List.replicate k [(x, zero)]) ?_ ?_ n
  · have he : ∀ y : Bytes, (X.flatMap fun x => List.replicate k [(x, zero)]).map (· ++ [(D, y)]) = X.flatMap fun x => List.replicate k [(x, zero), (D, y)] := by
      intro y
      rw [List.map_flatMap]
      congr 1; funext x
      rw [List.map_replicate]; rfl
    rw [he, he, List.length_map, hX] at this
    exact this
  · intro r hr
    obtain ⟨x, hx, hr⟩ := List.mem_flatMap.1 hr
    obtain ⟨_, rfl⟩ := List.mem_replicate.1 hr
    refine ⟨by simp, by simpa using fun h : D = x => hd (h ▸ hx), ?_, List.mem_map.2 ⟨x, hx, rfl⟩⟩
    intro y hy
    rw [List.mem_singleton.1 hy]
    exact ⟨by rw [hs x (h4 x hx), h0], List.mem_cons_of_mem _ hx⟩
  · simp only [List.length_flatMap, List.length_replicate, List.map_const', List.length_cons, List.sum_replicate_nat, hX]
    omega

/-- C68: frag_iter_20_padding_20 (bench_static.rs:3-75).  The first component of each entity is not a struct `A(f32)` but
the constructor `A` itself, a function item, which has no bytes (`spawn_entity(&mut $world, $x)`). -/
theorem C68_frag_iter_padding {X Y : List Ty} {D : Ty} (hX : X.length = 26) (hY : Y.length = 20) (hz : ∀ t ∈ X, t.layout = ⟨0, 0⟩) (h4 : ∀ t ∈ Y, t.layout = f32)
    (hD : D.layout = f32) (hn : Y.Nodup) (hdy : D ∉ Y) {two one : Bytes} (h2 : two.length = 4) (h1 : one.length = 4)
    {mul2 : Bytes → Bytes} (hm : ∀ v, (mul2 v).length = 4) (n : Nat) :
    Leaves (.iterBench (X.flatMap fun x => List.replicate 20 ((x, []) :: Y.map (·, two) ++ [(D, one)])) [.mut D] (onOne mul2) n)
      (X.flatMap fun x => List.replicate 20 ((x, []) :: Y.map (·, two) ++ [(D, Nat.repeat mul2 n one)])) 27 := by
  have hs : ∀ t : Ty, t.layout = f32 → t.size = 4 := fun t h => by show t.layout.size = 4; rw [h]; rfl
  have hzs : ∀ t ∈ X, t.size = 0 := fun t h => by show t.layout.size = 0; rw [hz t h]
  have hxd : ∀ t ∈ X, ∀ t' : Ty, t'.layout = f32 → t ≠ t' := fun t h t' h' he => by have := hzs t h; rw [he, hs t' h'] at this; cases this
  have hk : ∀ b : Bytes, (Y.map fun t => (t, b)).map Prod.fst = Y := fun b => by rw [List.map_map]; exact List.map_id' Y
  have := C68_data (types := D :: Y ++ X) (shapes := X.map fun x => x :: Y ++ [D]) (s := 4) (by decide) (by
      intro t ht
      rcases List.mem_append.1 ht with ht | ht
      · rcases List.mem_cons.1 ht with rfl | ht
        · rw [hs _ hD]; exact Nat.le_refl _
        · rw [hs _ (h4 t ht)]; exact Nat.le_refl _
      · rw [hzs t ht]; exact Nat.zero_le _) (by simp [hX]) (D := D) (one := one) (by rw [hs _ hD, h1]) (g := mul2)
    (by rw [hs _ hD]; exact hm) List.mem_cons_self (pres := X.flatMap fun x => List.replicate 20 ((x, []) :: Y.map (·, two))) ?_ ?_ n
  · have he : ∀ y : Bytes, (X.flatMap fun x => List.replicate 20 ((x, []) :: Y.map (·, two))).map (· ++ [(D, y)]) =
        X.flatMap fun x => List.replicate 20 ((x, []) :: Y.map (·, two) ++ [(D, y)]) := by
      intro y
      simp only [List.map_flatMap, List.map_replicate]
    rw [he, he, List.length_map, hX] at this
    exact this
  · intro r hr
    obtain ⟨x, hx, hr⟩ := List.mem_flatMap.1 hr
    obtain ⟨_, rfl⟩ := List.mem_replicate.1 hr
    rw [List.map_cons, hk]
    refine ⟨List.nodup_cons.2 ⟨fun h => hxd x hx x (h4 x h) rfl, hn⟩, ?_, ?_, List.mem_map.2 ⟨x, hx, rfl⟩⟩
    · intro h
      rcases List.mem_cons.1 h with rfl | h
      · exact hxd _ hx _ hD rfl
      · exact hdy h
    · intro y hy
      rcases List.mem_cons.1 hy with rfl | hy
      · exact ⟨(hzs _ hx).symm, List.mem_append_right _ hx⟩
      · obtain ⟨t, ht, rfl⟩ := List.mem_map.1 hy
        exact ⟨by rw [hs _ (h4 t ht), h2], List.mem_append_left _ (List.mem_cons_of_mem _ ht)⟩
  · simp [List.length_flatMap, List.map_const', hX, hY]

/-! ### loops with more parameters -/

/-- The loop body `|(pos, vel)| pos.0 += vel.0` -/
def addTwo (add : Bytes → Bytes → Bytes) : List AWorld.Seen → List (Option Bytes)
  | [.value p, .value v] => [some (add p v), none]
  | _ => []

theorem repeat_map {α β : Type} {F : α → α} {G : β → β} {m : β → α} (h : ∀ b, F (m b) = m (G b)) (b : β) (n : Nat) : Nat.repeat F n (m b) = m (Nat.repeat G n b) := by
  induction n with
  | zero => rfl
  | succ n ih =>
    show F (Nat.repeat F n _) = _
    rw [ih, h]
    rfl

/-- C68: simple_iter (bench_static.rs:208-250).  After `n` runs the velocity was added `n` times. -/
theorem C68_simple_iter {T P R V : Ty} (hn : [T, P, R, V].Nodup) (hT : T.layout = ⟨64, 2⟩) (hP : P.layout = ⟨12, 2⟩) (hR : R.layout = ⟨12, 2⟩) (hV : V.layout = ⟨12, 2⟩)
    {m x : Bytes} (hm : m.length = 64) (hx : x.length = 12) {add : Bytes → Bytes → Bytes} (ha : ∀ p v, (add p v).length = 12) (n : Nat) :
    Leaves (.iterBench (List.replicate 10000 [(T, m), (P, x), (R, x), (V, x)]) [.mut P, .mut V] (addTwo add) n)
      (List.replicate 10000 [(T, m), (P, Nat.repeat (add · x) n x), (R, x), (V, x)]) 2 := by
  have hTs : T.size = 64 := by show T.layout.size = 64; rw [hT]
  have hPs : P.size = 12 := by show P.layout.size = 12; rw [hP]
  have hRs : R.size = 12 := by show R.layout.size = 12; rw [hR]
  have hVs : V.size = 12 := by show V.layout.size = 12; rw [hV]
  have hn' := hn
  simp only [List.nodup_cons, List.mem_cons, List.not_mem_nil, or_false, not_or] at hn'
  obtain ⟨⟨n1, n2, n3⟩, ⟨n4, n5⟩, n6, _⟩ := hn'
  have hrun : ∀ (e : EcsId) (p : Bytes), Fields.run [.mut P, .mut V] (addTwo add) e [(T, m), (P, p), (R, x), (V, x)] = [(T, m), (P, add p x), (R, x), (V, x)] := by
    intro e p
    have : Fields.see e [(T, m), (P, p), (R, x), (V, x)] [.mut P, .mut V] = some [.value p, .value x] := by
      simp [Fields.see, List.lookup_cons, beq_eq_false_iff_ne.2 (Ne.symm n1), beq_eq_false_iff_ne.2 (Ne.symm n3),
        beq_eq_false_iff_ne.2 (Ne.symm n5), beq_eq_false_iff_ne.2 (Ne.symm n6)]
    unfold Fields.run
    rw [this]
    simp [addTwo, Fields.store, Fields.put, n1, Ne.symm n4, Ne.symm n5]
  have hsc : (rowsScope [[T, P, R, V]] [T, P, R, V] 64).Ok := ⟨by show 64 < _; decide, by
      intro t ht
      simp only [rowsScope, List.mem_cons, List.not_mem_nil, or_false] at ht
      show t.size ≤ 64
      rcases ht with rfl | rfl | rfl | rfl <;> omega, by show 4 < _; decide, by show 2 < _; decide, List.mem_cons_self⟩
  have := C68_iter hsc (rs := List.replicate 10000 [(T, m), (P, x), (R, x), (V, x)]) ?_ (by rw [List.length_replicate]; show 10000 + 4 ≤ _; decide)
    (ps := [.mut P, .mut V]) (f := addTwo add) ?_ ⟨P, .inl List.mem_cons_self⟩ ?_ (g := Fields.run [.mut P, .mut V] (addTwo add) ⟨0, 0⟩)
    (P := fun r => ∃ p, r = [(T, m), (P, p), (R, x), (V, x)]) ?_ ?_ n
  · rw [List.map_replicate, repeat_map (m := fun p => [(T, m), (P, p), (R, x), (V, x)]) (G := (add · x)) (fun p => hrun _ p)] at this
    exact this
  · intro r hr
    obtain ⟨_, rfl⟩ := List.mem_replicate.1 hr
    refine rowsScope_row hn ?_ (fun t ht => ht) List.mem_cons_self
    intro y hy
    simp only [List.mem_cons, List.not_mem_nil, or_false] at hy
    rcases hy with rfl | rfl | rfl | rfl <;> simp only [] <;> omega
  · simp only [Compatible, List.pairwise_cons, List.mem_singleton, List.not_mem_nil, false_imp_iff, implies_true, List.Pairwise.nil, and_true, forall_eq]
    rintro t
    refine ⟨?_, ?_⟩
    · rintro h; cases h
      exact ⟨fun h => n5 (by cases h; rfl), by simp⟩
    · intro h; cases h
  · intro ss i t bs h1 h2
    unfold addTwo at h2
    split at h2
    · rcases i with _ | _ | i
      · cases h1; cases h2; rw [hPs]; exact ha _ _
      · cases h2
      · cases h1
    · cases h2
  · intro r hr
    obtain ⟨_, rfl⟩ := List.mem_replicate.1 hr
    exact ⟨x, rfl⟩
  · rintro r ⟨p, rfl⟩
    exact ⟨⟨_, hrun _ p⟩, fun e => by rw [hrun, hrun]⟩

/-- The loop body of simple_large_iter. -/
def addFour (add : Bytes → Bytes → Bytes) : List AWorld.Seen → List (Option Bytes)
  | [.value a, .value b, .value c, .value d, .value e, .value f, .value g, .value h] =>
    [some (add a b), none, some (add c d), none, some (add e f), none, some (add g h), none]
  | _ => []

set_option linter.unusedSimpArgs false in
/-- C68: simple_large_iter (bench_static.rs:339-385). -/
theorem C68_large_iter {A B C D E F G H : Ty} (hn : [A, B, C, D, E, F, G, H].Nodup) (h4 : ∀ t ∈ [A, B, C, D, E, F, G, H], t.layout = f32)
    {one : Bytes} (h1 : one.length = 4) {add : Bytes → Bytes → Bytes} (ha : ∀ a b, (add a b).length = 4) (n : Nat) :
    Leaves (.iterBench (List.replicate 10000 [(A, one), (B, one), (C, one), (D, one), (E, one), (F, one), (G, one), (H, one)])
        [.mut A, .ref B, .mut C, .ref D, .mut E, .ref F, .mut G, .ref H] (addFour add) n)
      (List.replicate 10000 [(A, Nat.repeat (add · one) n one), (B, one), (C, Nat.repeat (add · one) n one), (D, one), (E, Nat.repeat (add · one) n one), (F, one), (G, Nat.repeat (add · one) n one), (H, one)]) 2 := by
  have hs : ∀ t ∈ [A, B, C, D, E, F, G, H], t.size = 4 := fun t h => by show t.layout.size = 4; rw [h4 t h]; rfl
  have hn' := hn
  simp only [List.nodup_cons, List.mem_cons, List.not_mem_nil, or_false, not_or] at hn'
  obtain ⟨⟨nAB, nAC, nAD, nAE, nAF, nAG, nAH⟩, ⟨nBC, nBD, nBE, nBF, nBG, nBH⟩, ⟨nCD, nCE, nCF, nCG, nCH⟩, ⟨nDE, nDF, nDG, nDH⟩, ⟨nEF, nEG, nEH⟩, ⟨nFG, nFH⟩, nGH, _⟩ := hn'
  have hrun : ∀ (e : EcsId) (a' c' e' g' : Bytes), Fields.run [.mut A, .ref B, .mut C, .ref D, .mut E, .ref F, .mut G, .ref H] (addFour add) e
      [(A, a'), (B, one), (C, c'), (D, one), (E, e'), (F, one), (G, g'), (H, one)] =
      [(A, add a' one), (B, one), (C, add c' one), (D, one), (E, add e' one), (F, one), (G, add g' one), (H, one)] := by
    intro e a' c' e' g'
    have : Fields.see e [(A, a'), (B, one), (C, c'), (D, one), (E, e'), (F, one), (G, g'), (H, one)]
        [.mut A, .ref B, .mut C, .ref D, .mut E, .ref F, .mut G, .ref H] =
        some [.value a', .value one, .value c', .value one, .value e', .value one, .value g', .value one] := by
      simp [Fields.see, List.lookup_cons, beq_eq_false_iff_ne.2 (Ne.symm nAB), beq_eq_false_iff_ne.2 (Ne.symm nAC), beq_eq_false_iff_ne.2 (Ne.symm nAD), beq_eq_false_iff_ne.2 (Ne.symm nAE), beq_eq_false_iff_ne.2 (Ne.symm nAF), beq_eq_false_iff_ne.2 (Ne.symm nAG), beq_eq_false_iff_ne.2 (Ne.symm nAH), beq_eq_false_iff_ne.2 (Ne.symm nBC), beq_eq_false_iff_ne.2 (Ne.symm nBD), beq_eq_false_iff_ne.2 (Ne.symm nBE), beq_eq_false_iff_ne.2 (Ne.symm nBF), beq_eq_false_iff_ne.2 (Ne.symm nBG), beq_eq_false_iff_ne.2 (Ne.symm nBH), beq_eq_false_iff_ne.2 (Ne.symm nCD), beq_eq_false_iff_ne.2 (Ne.symm nCE), beq_eq_false_iff_ne.2 (Ne.symm nCF), beq_eq_false_iff_ne.2 (Ne.symm nCG), beq_eq_false_iff_ne.2 (Ne.symm nCH), beq_eq_false_iff_ne.2 (Ne.symm nDE), beq_eq_false_iff_ne.2 (Ne.symm nDF), beq_eq_false_iff_ne.2 (Ne.symm nDG), beq_eq_false_iff_ne.2 (Ne.symm nDH), beq_eq_false_iff_ne.2 (Ne.symm nEF), beq_eq_false_iff_ne.2 (Ne.symm nEG), beq_eq_false_iff_ne.2 (Ne.symm nEH), beq_eq_false_iff_ne.2 (Ne.symm nFG), beq_eq_false_iff_ne.2 (Ne.symm nFH), beq_eq_false_iff_ne.2 (Ne.symm nGH)]
    unfold Fields.run
    rw [this]
    simp [addFour, Fields.store, Fields.put, nAB, nAC, nAD, nAE, nAF, nAG, nAH, nBC, nBD, nBE, nBF, nBG, nBH, nCD, nCE, nCF, nCG, nCH, nDE, nDF, nDG, nDH, nEF, nEG, nEH, nFG, nFH, nGH, Ne.symm nAB, Ne.symm nAC, Ne.symm nAD, Ne.symm nAE, Ne.symm nAF, Ne.symm nAG, Ne.symm nAH, Ne.symm nBC, Ne.symm nBD, Ne.symm nBE, Ne.symm nBF, Ne.symm nBG, Ne.symm nBH, Ne.symm nCD, Ne.symm nCE, Ne.symm nCF, Ne.symm nCG, Ne.symm nCH, Ne.symm nDE, Ne.symm nDF, Ne.symm nDG, Ne.symm nDH, Ne.symm nEF, Ne.symm nEG, Ne.symm nEH, Ne.symm nFG, Ne.symm nFH, Ne.symm nGH]
  have hsc : (rowsScope [[A, B, C, D, E, F, G, H]] [A, B, C, D, E, F, G, H] 4).Ok :=
    ⟨by show 4 < _; decide, (fun t ht => by show t.size ≤ 4; rw [hs t ht]; exact Nat.le_refl _), by show 8 < _; decide, by show 2 < _; decide, List.mem_cons_self⟩
  have := C68_iter hsc (rs := List.replicate 10000 [(A, one), (B, one), (C, one), (D, one), (E, one), (F, one), (G, one), (H, one)]) ?_
    (by rw [List.length_replicate]; show 10000 + 8 ≤ _; decide) (ps := [.mut A, .ref B, .mut C, .ref D, .mut E, .ref F, .mut G, .ref H]) (f := addFour add) ?_ ⟨A, .inl List.mem_cons_self⟩ ?_
    (g := Fields.run [.mut A, .ref B, .mut C, .ref D, .mut E, .ref F, .mut G, .ref H] (addFour add) ⟨0, 0⟩)
    (P := fun r => ∃ a' c' e' g', r = [(A, a'), (B, one), (C, c'), (D, one), (E, e'), (F, one), (G, g'), (H, one)]) ?_ ?_ n
  · rw [List.map_replicate, repeat_map (m := fun v => [(A, v), (B, one), (C, v), (D, one), (E, v), (F, one), (G, v), (H, one)]) (G := (add · one))
      (fun v => hrun _ v v v v)] at this
    exact this
  · intro r hr
    obtain ⟨_, rfl⟩ := List.mem_replicate.1 hr
    refine rowsScope_row hn ?_ (fun t ht => ht) List.mem_cons_self
    intro y hy
    have h2 : y.1 ∈ [A, B, C, D, E, F, G, H] := List.mem_map.2 ⟨y, hy, rfl⟩
    rw [hs y.1 h2]
    simp only [List.mem_cons, List.not_mem_nil, or_false] at hy
    rcases hy with rfl | rfl | rfl | rfl | rfl | rfl | rfl | rfl <;> exact h1
  · simp [Compatible, nAB, nAC, nAD, nAE, nAF, nAG, nAH, nBC, nBD, nBE, nBF, nBG, nBH, nCD, nCE, nCF, nCG, nCH, nDE, nDF, nDG, nDH, nEF, nEG, nEH, nFG, nFH, nGH, Ne.symm nAB, Ne.symm nAC, Ne.symm nAD, Ne.symm nAE, Ne.symm nAF, Ne.symm nAG, Ne.symm nAH, Ne.symm nBC, Ne.symm nBD, Ne.symm nBE, Ne.symm nBF, Ne.symm nBG, Ne.symm nBH, Ne.symm nCD, Ne.symm nCE, Ne.symm nCF, Ne.symm nCG, Ne.symm nCH, Ne.symm nDE, Ne.symm nDF, Ne.symm nDG, Ne.symm nDH, Ne.symm nEF, Ne.symm nEG, Ne.symm nEH, Ne.symm nFG, Ne.symm nFH, Ne.symm nGH]
  · intro ss i t bs g1 g2
    have h2 : t ∈ [A, B, C, D, E, F, G, H] := by
      have := List.mem_of_getElem? g1
      simp only [List.mem_cons, Param.mut.injEq, reduceCtorEq, List.not_mem_nil, or_false, false_or] at this
      rcases this with rfl | rfl | rfl | rfl <;> simp
    rw [hs t h2]
    unfold addFour at g2
    split at g2
    · have := List.mem_of_getElem? g2
      simp only [List.mem_cons, Option.some.injEq, reduceCtorEq, List.not_mem_nil, or_false, false_or] at this
      rcases this with rfl | rfl | rfl | rfl <;> exact ha _ _
    · cases g2
  · intro r hr
    obtain ⟨_, rfl⟩ := List.mem_replicate.1 hr
    exact ⟨one, one, one, one, rfl⟩
  · rintro r ⟨a', c', e', g', rfl⟩
    exact ⟨⟨_, _, _, _, hrun _ a' c' e' g'⟩, fun e => by rw [hrun, hrun]⟩

/-! ### programs with one kind of rows -/

theorem replicate_row {n : Nat} {r : Fields} {P : Fields → Prop} (h : P r) : ∀ r' ∈ List.replicate n r, P r' := by
  intro r' hr
  obtain ⟨_, rfl⟩ := List.mem_replicate.1 hr
  exact h

/-- A scope for one kind of rows. -/
theorem oneScope_ok {ts : List Ty} {shapes : List (List Ty)} {s : Nat} (hs : s < 2 ^ 29) (ht : ∀ t ∈ ts, t.size ≤ s) (hl : ts.length < 2 ^ 32) (hsh : shapes.length + 1 < 2 ^ 32) :
    (rowsScope shapes ts s).Ok := ⟨hs, ht, hl, by show (_ :: shapes).length < _; simpa using hsh, List.mem_cons_self⟩

/-- C68: simple_insert (bench_static.rs:252-287) and frag_insert (289-337): 10000 entities with four components; `10000 / 26`
entities for each of 26 empty types. -/
theorem C68_inserts {T P R V : Ty} {X : List Ty} (hn : [T, P, R, V].Nodup) (hT : T.layout = ⟨64, 2⟩) (hP : P.layout = ⟨12, 2⟩) (hR : R.layout = ⟨12, 2⟩) (hV : V.layout = ⟨12, 2⟩)
    (hX : X.length = 26) (hz : ∀ t ∈ X, t.layout = ⟨0, 0⟩) {m x : Bytes} (hm : m.length = 64) (hx : x.length = 12) :
    Leaves (.spawnAll (List.replicate 10000 [(T, m), (P, x), (R, x), (V, x)])) (List.replicate 10000 [(T, m), (P, x), (R, x), (V, x)]) 2 ∧
      Leaves (.spawnAll (X.flatMap fun y => List.replicate (10000 / 26) [(T, m), (P, x), (R, x), (V, x), (y, [])]))
        (X.flatMap fun y => List.replicate (10000 / 26) [(T, m), (P, x), (R, x), (V, x), (y, [])]) 27 := by
  have hTs : T.size = 64 := by show T.layout.size = 64; rw [hT]
  have hPs : P.size = 12 := by show P.layout.size = 12; rw [hP]
  have hRs : R.size = 12 := by show R.layout.size = 12; rw [hR]
  have hVs : V.size = 12 := by show V.layout.size = 12; rw [hV]
  have hXs : ∀ t ∈ X, t.size = 0 := fun t ht => by show t.layout.size = 0; rw [hz t ht]
  have h4 : ∀ t ∈ [T, P, R, V], t.size ≤ 64 := by
    intro t ht
    simp only [List.mem_cons, List.not_mem_nil, or_false] at ht
    rcases ht with rfl | rfl | rfl | rfl <;> omega
  constructor
  · refine C68_insert (sc := rowsScope [[T, P, R, V]] [T, P, R, V] 64) (oneScope_ok (by decide) h4 (by show 4 < _; decide) (by show 1 + 1 < _; decide))
      (replicate_row (rowsScope_row hn ?_ (fun t ht => ht) List.mem_cons_self)) (by rw [List.length_replicate]; show 10000 + 4 ≤ _; decide)
    intro y hy
    simp only [List.mem_cons, List.not_mem_nil, or_false] at hy
    rcases hy with rfl | rfl | rfl | rfl <;> simp only [] <;> omega
  · have := C68_insert (sc := rowsScope (X.map fun y => [T, P, R, V, y]) ([T, P, R, V] ++ X) 64) (oneScope_ok (by decide) ?_ ?_ ?_)
      (rs := X.flatMap fun y => List.replicate (10000 / 26) [(T, m), (P, x), (R, x), (V, x), (y, [])]) ?_ ?_
    · have h27 : (rowsScope (X.map fun y => [T, P, R, V, y]) ([T, P, R, V] ++ X) 64).shapes.length = 27 := by simp [rowsScope, hX]
      rw [h27] at this
      exact this
    · intro t ht
      rcases List.mem_append.1 ht with ht | ht
      · exact h4 t ht
      · rw [hXs t ht]; exact Nat.zero_le _
    · simp [hX]
    · simp [hX]
    · intro r hr
      obtain ⟨y, hy, hr⟩ := List.mem_flatMap.1 hr
      obtain ⟨_, rfl⟩ := List.mem_replicate.1 hr
      have hne : ∀ t ∈ [T, P, R, V], t ≠ y := by
        intro t ht he
        have h0 := hXs y hy
        simp only [List.mem_cons, List.not_mem_nil, or_false] at ht
        rcases ht with rfl | rfl | rfl | rfl <;> subst he <;> omega
      refine rowsScope_row ?_ ?_ ?_ (List.mem_map.2 ⟨y, hy, rfl⟩)
      · show ([T, P, R, V] ++ [y]).Nodup
        rw [List.nodup_append]
        exact ⟨hn, by simp, fun a ha b hb => by rw [List.mem_singleton.1 hb]; exact hne a ha⟩
      · intro z hz'
        simp only [List.mem_cons, List.not_mem_nil, or_false] at hz'
        rcases hz' with rfl | rfl | rfl | rfl | rfl <;> simp only [List.length_nil] <;> first | omega | exact (hXs _ hy).symm
      · intro t ht
        change t ∈ [T, P, R, V] ++ [y] at ht
        rcases List.mem_append.1 ht with ht | ht
        · exact List.mem_append_left _ ht
        · rw [List.mem_singleton.1 ht]; exact List.mem_append_right _ hy
    · simp only [List.length_flatMap, List.length_replicate, List.map_const', List.sum_replicate_nat, hX, rowsScope, List.length_append, List.length_cons, List.length_nil]
      omega

/-- C68: add_remove, padded_add_remove and wide_add_remove (bench_static.rs:387-504): 10000 entities with the components
`r` (`A`; `Padding`, `A`; `P1` to `P8`; each at most 1024 bytes), and `B` comes and goes.  There are three tables at most. -/
theorem C68_add_remove_benches {r : Fields} {B : Ty} {b : Bytes} (hr : (r.map Prod.fst).Nodup) (hs : ∀ x ∈ r, x.2.length = x.1.size ∧ x.1.size ≤ 1024)
    (hl : r.length ≤ 8) (hB : B.layout = f32) (hb : b.length = 4) (hn : B ∉ r.map Prod.fst) (n : Nat) :
    Leaves (.addRemoveBench (List.replicate 10000 r) B b n) (List.replicate 10000 r) 3 := by
  have hBs : B.size = 4 := by show B.layout.size = 4; rw [hB]; rfl
  refine C68_add_remove (sc := rowsScope [r.map Prod.fst, r.map Prod.fst ++ [B]] (r.map Prod.fst ++ [B]) 1024) (oneScope_ok (by decide) ?_ ?_ (by show 2 + 1 < _; decide))
    (hb.trans hBs.symm) (replicate_row ⟨rowsScope_row hr (fun x hx => (hs x hx).1) (fun t ht => List.mem_append_left _ ht) List.mem_cons_self, lookup_none.2 hn, ?_⟩) ?_ n
  · intro t ht
    rcases List.mem_append.1 ht with ht | ht
    · obtain ⟨x, hx, rfl⟩ := List.mem_map.1 ht
      exact (hs x hx).2
    · rw [List.mem_singleton.1 ht, hBs]; decide
  · simp only [List.length_append, List.length_map, List.length_singleton]; omega
  · exact ⟨fun t ht => ht, _, List.mem_cons_of_mem _ (List.mem_cons_of_mem _ List.mem_cons_self), fun _ => Iff.rfl⟩
  · simp only [List.length_replicate, rowsScope, List.length_append, List.length_map, List.length_singleton]; omega

/-- C68: the playground (playground/src/main.rs, where `n` is a million) and `get` (bench_static.rs:506-536). -/
theorem C68_playground {A : Ty} {ten : Bytes} (hA : A.layout = f32) (h10 : ten.length = 4) (n : Nat) :
    Leaves (.getBench (List.replicate 10000 [(A, ten)]) A n) (List.replicate 10000 [(A, ten)]) 2 := by
  have hAs : A.size = 4 := by show A.layout.size = 4; rw [hA]; rfl
  refine C68_get (sc := rowsScope [[A]] [A] 4) (oneScope_ok (by decide) ?_ (by show 1 < _; decide) (by show 1 + 1 < _; decide))
    (replicate_row (r := [(A, ten)]) ⟨rowsScope_row (by simp) ?_ (fun t ht => ht) List.mem_cons_self, by simp⟩) (by rw [List.length_replicate]; show 10000 + 1 ≤ _; decide) n
  · intro t ht; rw [List.mem_singleton.1 ht, hAs]; decide
  · intro x hx; rw [List.mem_singleton.1 hx]; exact h10.trans hAs.symm

/-- C68: `padded_get` (bench_static.rs:538-577). -/
theorem C68_padded_get_bench {X : List Ty} {D : Ty} {one ten : Bytes} (hX : X.length = 26) (hn : X.Nodup) (h4 : ∀ t ∈ X, t.layout = f32) (hD : D.layout = f32) (hd : D ∉ X)
    (h1 : one.length = 4) (h10 : ten.length = 4) (n : Nat) :
    Leaves (.paddedGetBench (List.replicate 10000 (X.map (·, one))) D ten n) (List.replicate 10000 (X.map (·, one) ++ [(D, ten)])) 3 := by
  have hs : ∀ t : Ty, t.layout = f32 → t.size = 4 := fun t h => by show t.layout.size = 4; rw [h]; rfl
  have hk : (X.map fun t => (t, one)).map Prod.fst = X := by rw [List.map_map]; exact List.map_id' X
  have := C68_padded_get (sc := rowsScope [X, X ++ [D]] (X ++ [D]) 4) (oneScope_ok (by decide) ?_ ?_ (by show 2 + 1 < _; decide)) (h10.trans (hs D hD).symm)
    (replicate_row (n := 10000) (r := X.map (·, one)) ⟨rowsScope_row (by rw [hk]; exact hn) ?_ ?_ (by rw [hk]; exact List.mem_cons_self), lookup_none.2 (by rw [hk]; exact hd), ?_⟩) ?_ n
  · rw [List.map_replicate] at this
    exact this
  · intro t ht
    rcases List.mem_append.1 ht with ht | ht
    · rw [hs t (h4 t ht)]; decide
    · rw [List.mem_singleton.1 ht, hs D hD]; decide
  · simp [hX]
  · intro x hx
    obtain ⟨t, ht, rfl⟩ := List.mem_map.1 hx
    exact h1.trans (hs t (h4 t ht)).symm
  · rw [hk]; exact fun t ht => List.mem_append_left _ ht
  · rw [hk]
    exact ⟨fun t ht => ht, _, List.mem_cons_of_mem _ (List.mem_cons_of_mem _ List.mem_cons_self), fun _ => Iff.rfl⟩
  · simp only [List.length_replicate, rowsScope, List.length_append, hX, List.length_singleton]; omega

/-! ### cases -/

/-- 26 types for `A` to `Z`. -/
def letters (l : Layout) : List Ty := (List.range 26).map fun i => ⟨i, l⟩

def one32 : Bytes := val 4 1

example : Leaves (.iterBench ((letters f32).flatMap fun x => List.replicate 2000 [(x, val 4 0), (⟨26, f32⟩, one32)]) [.mut ⟨26, f32⟩] (onOne fun v => (v ++ val 4 0).take 4) 5)
    ((letters f32).flatMap fun x => List.replicate 2000 [(x, val 4 0), (⟨26, f32⟩, Nat.repeat (fun v => (v ++ val 4 0).take 4) 5 one32)]) 27 :=
  C68_frag_iter rfl (by decide) rfl (by decide) (by decide) rfl rfl (fun v => by simp [val]) 5

example : Leaves (.getBench (List.replicate 10000 [(⟨0, f32⟩, one32)]) ⟨0, f32⟩ 1000000) (List.replicate 10000 [(⟨0, f32⟩, one32)]) 2 :=
  C68_playground rfl rfl 1000000

example : Leaves (.addRemoveBench (List.replicate 10000 [(⟨0, ⟨1024, 0⟩⟩, val 1024 0), (⟨1, f32⟩, one32)]) ⟨2, f32⟩ one32 7)
    (List.replicate 10000 [(⟨0, ⟨1024, 0⟩⟩, val 1024 0), (⟨1, f32⟩, one32)]) 3 :=
  C68_add_remove_benches (by decide) (by
    intro x hx
    simp only [List.mem_cons, List.not_mem_nil, or_false] at hx
    rcases hx with rfl | rfl
    · exact ⟨List.length_replicate, Nat.le_refl _⟩
    · exact ⟨rfl, by decide⟩) (by decide) rfl rfl (by decide) 7

/-- Some function that keeps the number of bytes. -/
def mix (n : Nat) (p v : Bytes) : Bytes := (v ++ p ++ val n 0).take n

example : Leaves (.iterBench ((letters ⟨0, 0⟩).flatMap fun x => List.replicate 20 ((x, []) :: ((letters f32).take 20).map (·, one32) ++ [(⟨26, f32⟩, one32)]))
      [.mut ⟨26, f32⟩] (onOne (mix 4 one32)) 3)
    ((letters ⟨0, 0⟩).flatMap fun x => List.replicate 20 ((x, []) :: ((letters f32).take 20).map (·, one32) ++ [(⟨26, f32⟩, Nat.repeat (mix 4 one32) 3 one32)])) 27 :=
  C68_frag_iter_padding rfl rfl (by decide) (by decide) rfl (by decide) (by decide) rfl rfl (fun v => by simp only [mix, val, List.length_take, List.length_append, List.length_replicate]; omega) 3

example : ∃ rs, Leaves (.iterBench (List.replicate 10000 [(⟨0, ⟨64, 2⟩⟩, val 64 1), (⟨1, ⟨12, 2⟩⟩, val 12 1), (⟨2, ⟨12, 2⟩⟩, val 12 1), (⟨3, ⟨12, 2⟩⟩, val 12 1)])
      [.mut ⟨1, ⟨12, 2⟩⟩, .mut ⟨3, ⟨12, 2⟩⟩] (addTwo (mix 12)) 3) rs 2 :=
  ⟨_, C68_simple_iter (by decide) rfl rfl rfl rfl rfl rfl (fun p v => by simp only [mix, val, List.length_take, List.length_append, List.length_replicate]; omega) 3⟩

example : ∃ rs, Leaves (.iterBench (List.replicate 10000 [(⟨0, f32⟩, one32), (⟨1, f32⟩, one32), (⟨2, f32⟩, one32), (⟨3, f32⟩, one32), (⟨4, f32⟩, one32), (⟨5, f32⟩, one32), (⟨6, f32⟩, one32), (⟨7, f32⟩, one32)])
      [.mut ⟨0, f32⟩, .ref ⟨1, f32⟩, .mut ⟨2, f32⟩, .ref ⟨3, f32⟩, .mut ⟨4, f32⟩, .ref ⟨5, f32⟩, .mut ⟨6, f32⟩, .ref ⟨7, f32⟩] (addFour (mix 4)) 3) rs 2 :=
  ⟨_, C68_large_iter (by decide) (by decide) rfl (fun p v => by simp only [mix, val, List.length_take, List.length_append, List.length_replicate]; omega) 3⟩

example : ∃ rs, Leaves (.spawnAll ((letters ⟨0, 0⟩).flatMap fun y => List.replicate (10000 / 26)
      [(⟨0, ⟨64, 2⟩⟩, val 64 1), (⟨1, ⟨12, 2⟩⟩, val 12 1), (⟨2, ⟨12, 2⟩⟩, val 12 1), (⟨3, ⟨12, 2⟩⟩, val 12 1), (y, [])])) rs 27 :=
  ⟨_, (C68_inserts (by decide) rfl rfl rfl rfl rfl (by decide) rfl rfl).2⟩

example : ∃ rs, Leaves (.paddedGetBench (List.replicate 10000 ((letters f32).map (·, one32))) ⟨26, f32⟩ one32 9) rs 3 :=
  ⟨_, C68_padded_get_bench rfl (by decide) (by decide) rfl (by decide) rfl rfl 9⟩

end Ellecs.WorldSpec
