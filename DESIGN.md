# Formal model of EllenNyan/Ellecs (`arche_tape` + `untyped_vec`) in Lean 4

## Trusted base

* Lean's kernel (Lean 4.33.0).  No Mathlib module is imported.
* The axioms `propext`, `Classical.choice` and `Quot.sound`; `#print axioms` of every theorem of `MANIFEST.json` lists a
  subset of these three.  There is no axiom of our own, no `sorry`, no `native_decide`, no `bv_decide`.
  (`decide +kernel` evaluates concrete witnesses in the kernel; it adds no axiom.)
* That the model (`lean/Verif/Model/*`) says what the Rust code does.  It was written by reading the code, function by
  function; the comment of every definition cites file and lines.  Nothing checks it mechanically against the code;
  `lean/Verif/Check/RepoTests.lean` replays the repository's own unit tests on the model (all pass).
* That the specifications (`lean/Verif/Spec/*` and the theorem statements in `lean/Verif/Props/*`) say what
  `properties.jsonl` says in English.  `seeded/LOG.jsonl` records how the theorems react to bugs put into the model.
* The semantics of `std` used by the code and taken from its documentation: `Vec`, `HashMap`, `sort`, `RwLock` including
  poisoning, `Layout`, `alloc`/`realloc`/`dealloc`, `drop_in_place`, `size_of`, unwinding.

## How the code is modelled

* `&mut self` methods return the new value.  World-level methods live in `M := EStateM Fault World`: a panic is an
  explicit `Fault`, and the state *at the panic* is kept, so what a caught panic leaves behind is visible.
* Undefined behaviour is an explicit `Fault.ub _`: reading or writing outside an allocation or past the initialised
  length, typed access to a column of another type, dereferencing a null pointer, freeing with a wrong layout.  "Never
  UB" is thus a theorem, not an assumption.
* A component value is the list of its bytes (`Option (BitVec 8)`, `none` = uninitialised byte / padding).
* `UntypedVec` is modelled at byte level (memory block, byte `cap`, byte `len`), the entity builder's buffer likewise.
* `drop_fn` calls are recorded in a ghost log, so "dropped exactly once" is a statement about that log.
* `HashMap` is a partial function; `sort` is a stable insertion sort; `usize` is `Nat` except where truncation or
  wrap-around is observable (generations are `BitVec 32`, the `as u32` truncations of bit lengths are explicit, bitsets
  are lists of 64-bit words) and except in `UntypedVec`, where overflow of sizes is checked explicitly.
* Loops are structural recursion or carry fuel that is proved sufficient (`Fault.fuel` is proved unreachable).
* Locks: each `RwLock<()>` is a state (free, n readers, writer) and a poison flag.  One thread only: `World` holds
  `UnsafeCell`s and is `!Sync`, so two threads never use one world at the same time.  Acquiring a lock that this thread
  holds in a conflicting mode is `Fault.deadlock`.

| module | code |
|---|---|
| `Model/Basic` | faults, bytes, `Layout`, `sort`, `Vec::swap_remove`, `index_twice_mut` (lib.rs:78-95) |
| `Model/Entities` | entities.rs |
| `Model/Text` | `Debug` and `Display` of ids (entities.rs:6-37) |
| `Model/Bitset` | bitset_iterator.rs |
| `Model/ArrayVec` | array_vec.rs |
| `Model/ArrayVecDrop` | the functions of array_vec.rs that run destructors, again, with destructors that may panic |
| `Model/UntypedVec` | untyped_vec/src/lib.rs |
| `Model/World` | world.rs: caches, archetypes, all methods of `World` |
| `Model/Builder` | entity_builder.rs, the `spawn*` methods of `World` |
| `Model/Accessors` | `raw_len`, `get_type_info` (untyped_vec/src/lib.rs), the `spawn!` macro (arche_tape/src/lib.rs) |
| `Model/Query` | static_query.rs, dyn_query.rs, the query methods of `World`, guards |
| `Model/Unwind` | the functions of world.rs and untyped_vec that call destructors, again, with destructors that may panic |
| `Model/Hash` | `TypeIdHasher` (lib.rs:52-76), `Hash for EcsId` (entities.rs:46-50) |

Layers: `Model/*` (the code), `Spec/*` (vocabulary of the claims, independent of the helpers of the proofs), `Proofs/*`
(invariants and lemmas), `Props/*` (one theorem or more per property, with `example`s that meet the hypotheses).

### Not modelled

* The derived `Debug` of everything but ids, `Default for World` (it is `World::new`), `with_capacity` constructors (capacity is not
  observable), `as_immut_ptr`, `as_mut_ptr` (the pointer that the offsets of the model are relative to).
* Criterion, which runs the benchmarks.  (The playground and the benchmarks themselves are programs of C68 and C70; the unit tests
  are replayed on the model in `Check/RepoTests`.)
* Threads: `UntypedVec` holds a `NonNull<u8>` and nothing in the repository implements `Send` or `Sync` for it, so safe
  code cannot use a world in two threads.
* Allocator failure (`handle_alloc_error`), time, and memory except for the blocks of columns (C52, C60, C62, C84).
* Values are bytes.  What a destructor does besides being called once with the right bytes, or panicking (C53), is
  outside; so are destructors that use the world (they cannot: the world is mutably borrowed).
* The borrow checker and the type system are assumed to reject what they reject: e.g. no call that takes `&mut World`
  is made while a query of that world lives.  What they make the caller guarantee is `Call.Ok`.
* `mem::forget` of queries and builders: only in C61 (`Spec/Safe`); the other properties are about programs that drop them.
* Pointer provenance rules beyond "which block, which offset, which length" (Stacked Borrows).

### Simplifications

* `TypeId`s of different types differ (a Rust guarantee up to hash collisions in `rustc`).
* A panic because a size exceeds `isize::MAX` bytes (`Limit`) in the middle of a move leaves the world as it was before
  the move; in the code some columns may have been moved already.  Theorems about histories exclude such panics;
  C62 shows that they cannot occur in programs whose components have less than `2^29` bytes.
* Which destructors panic is arbitrary, and may depend on the destructors that ran before in the same call (`Panics`); a
  destructor that panics has dropped its value.
* `sort` is modelled by a stable insertion sort; the comparators used are total orders, so every stable sort agrees.
* Capacity doubling, rows, columns are unbounded `Nat`s where the code uses `usize` for the *number of elements* of a
  `Vec`; such numbers are below `2^64` because the elements are in memory.

## Where the code disagrees with the properties

| property | what the code does | witness |
|---|---|---|
| C01 | a slot recycled `2^32` times repeats ids (the claim is stated up to this bound) | `C01_bound_exact` |
| C48, C86 | after the slot of a despawned type was recycled `2^32` times safe queries of that type read out of bounds (C48 is stated up to this bound; C61 only for the slots of types; without despawned types there is no bound, C87) | `C86_unsound` |
| C12 | `get_component_mut_dynamic` panics when the live entity lacks the component, instead of returning `None` | `C12_absent_panics` |
| C18 | a static query of a type that has an id but no entity ever had panics and poisons locks it already took for writing | `C18_static_unused_panics` |
| C22 | `query::<(&mut A, &A)>` and `(&mut A, &mut A)` block for ever | `C22_static_self_clash`, `C22_dynamic_self_clash` |
| C25 | `build` with a component added twice panics after it inserted part of the row | `C25_row_left_behind` |
| C26 | a rejected `add_component_dynamic` of an unused component leaves a lock behind; dynamic queries of it then panic | `C26_stray_lock` |
| C27 | `build` can be called twice on one builder | `C27_build_twice` |
| C27 | a second `build` after one that made a table puts the entity into the table without components as well | `C27_build_elsewhere` |
| C27 | `build` can be called again after it panicked: the values are dropped again, at the wrong offsets | `C27_build_again` |
| C34, C36 | `add_component::<T>` after the component entity of `T` was despawned does nothing and leaks the value | `C36_add_lost` |
| C35 | zero-sized values are never dropped when the world is dropped | `C35_leak` |
| C37 | despawning a component entity that is in use is a `todo!()` panic | `C37_despawn_used_panics` |
| C40 | `pop` on an empty `UntypedVec` of zero-sized elements returns `true` and calls the drop function | `C40_zst_pop_violated` |
| C41 | `as_slice` panics for zero-sized elements (remainder by zero) | `C41_zst_panics` |
| C42 | pointers to zero-sized elements with alignment above 1 are misaligned; so are elements of hand-made unpadded layouts, and the empty slice `as_slice` returns for a vec that never had an element | `C42_zst_misaligned`, `C42_unpadded_misaligned`, `C42_empty_slice_misaligned` |
| C46 | `ArrayVec::pop` reads the slot after the last element | `C46_pop_faults` |
| C53 | after a destructor panicked in `remove_component` a safe query reads out of bounds; after one in `despawn` ids are confused | `C53_remove_unsound`, `C53_despawn_confused` |
| C56 | references to zero-sized values with alignment above 1 have address 1, also in safe programs | `C56_zst_misaligned`, `C56_safe_misaligned` |
| C71 | the size of the first block is not compared with `isize::MAX`: with elements of `2^61` bytes it has `2^63` (no allocator grants it) | `C71_first_block_unchecked` |
| C78 | `ArrayVec::push_start` runs the destructor of the evicted element before it lowers `len`: if the destructor panics it runs again when the array is dropped; `drop` leaks what is behind a panicking destructor (the world only stores `(EcsId, usize)`) | `C78_twice`, `C78_leak` |

Also seen, not against a listed property: a builder dropped without `build` leaks the values given to it, and its id (C85);
`remove_component::<T>` of a `T` never used creates the component entity of `T` and then panics; a dynamic query with no
fetches yields nothing; `swap_move_element_to_other_vec` does not check its index for zero-sized elements; a query whose
creation panics poisons the components it had write access to already (`C23_call_panic`).

For each of these the manifest marks the claim `partial` (except for C01, C22 and C48, whose statements say what the code does);
the part that holds is proved for all inputs, the violation is proved by a concrete witness.

## Per property

How: *ind* = induction over all histories of calls (including panicking ones), *inv* = consequence of the invariant of
reachable worlds, *ref* = refinement of the byte-level or iterator-level code to a mathematical object, *sim* = simulation between two
systems, *alg* = direct
proof about a function for all arguments, *wit* = concrete witness of a violation.

| id | claim | modelled by / proved how | status | theorems (in) |
|---|---|---|---|---|
| C01 | Spawned ids are unique | `Entities`; *ind* over histories of the allocator | proved | `C01_ids_unique`, `C01_bound_exact` (Props/Entities) |
| C02 | Liveness is exact | `Entities`; *ind* over histories of the allocator | proved | `C02_is_alive_exact`, `C02_is_alive_total`, `C02_handle_alive_until_despawned` (Props/Entities) |
| C03 | despawn kills exactly one entity, once | `Entities`; *ind* over histories of the allocator | proved | `C03_despawn_once` (Props/Entities) |
| C04 | Slots are recycled, never leaked or shared | `Entities`; *ind* over histories of the allocator | proved | `C04_spawn_recycles` (Props/Entities) |
| C05 | Identity of ids is coherent | `EcsId`; *alg* (bit-vectors) | proved | `C05_eq_iff`, `C05_lt_iff`, `C05_total_order` (Props/Entities) |
| C06 | Building an entity gives it exactly its components | builder; *inv*, *ref* of builder scripts to lists of values | proved | `C06_build_exact`, `C06_build_succeeds`, `C06_one_value`, `C06_spawn_macro` (Props/Accessors, Props/Build) |
| C07 | add_component adds exactly one component | add/remove/despawn; *inv*, *ref* of tables to the map id -> component -> bytes | proved | `C07_add_exact`, `C07_add_succeeds`, `C07_add_dynamic_exact`, `C07_add_zero_sized_exact`, `C07_add_dynamic_succeeds` (Props/Components) |
| C08 | remove_component removes exactly one component | add/remove/despawn; *inv*, *ref* of tables to the map id -> component -> bytes | proved | `C08_remove_exact`, `C08_remove_succeeds`, `C08_remove_dynamic_exact`, `C08_remove_dynamic_succeeds` (Props/Components) |
| C09 | despawn removes exactly one entity | add/remove/despawn; *inv*, *ref* of tables to the map id -> component -> bytes | proved | `C09_despawn_exact`, `C09_despawn_succeeds` (Props/Entity) |
| C10 | Component ids of types are stable and distinct | type map; *ind* | proved | `C10_ids_stable_distinct`, `C10_info` (Props/Entity) |
| C11 | has_component is exact | observers; *inv* | proved | `C11_has_component_exact`, `C11_has_alive` (Props/Entity) |
| C12 | get_component_mut_dynamic points at the right cell | observers; *inv*, *wit* for all worlds with such an entity | partial | `C12_get_component_partial`, `C12_pointer_reads`, `C12_absent_panics` (Props/Entity) |
| C13 | StaticQuery::get is exact | queries; *ref* of the iterators to the list of matching rows (`Yields`) | proved | `C13_get_exact` (Props/Query) |
| C14 | StaticQuery::iter visits every matching entity exactly once | queries; *ref* of the iterators to the list of matching rows (`Yields`) | proved | `C14_iter_exact`, `C14_values_irrelevant`, `C14_loop_body` (Props/Query) |
| C15 | DynQuery::iter visits every matching entity exactly once | queries; *ref* of the iterators to the list of matching rows (`Yields`) | proved | `C15_iter_exact` (Props/Query) |
| C16 | DynQuery::column_iter yields every matching table once | queries; *ref* of the iterators to the list of matching rows (`Yields`) | proved | `C16_columns_exact` (Props/Query) |
| C17 | Static and dynamic queries agree | queries; *ref* of the iterators to the list of matching rows (`Yields`) | proved | `C17_static_dynamic_agree` (Props/Query) |
| C18 | Querying an absent component yields nothing and does not panic | query creation; *alg*, *wit* | partial | `C18_dynamic_absent`, `C18_dynamic_creation`, `C18_static_unregistered`, `C18_static_absent_partial`, `C18_static_unused_panics`, `C18_static_unused_poisons`, `C18_static_creation`, `C18_static_unused_fails` (Props/Exact, Props/Locks, Props/Query) |
| C19 | Writing through a reference changes only that cell | writes through pointers; frame lemmas on bytes | proved | `C19_write_frame` (Props/Entity) |
| C20 | References from one iteration never overlap | writes through pointers; frame lemmas on bytes | proved | `C20_apart`, `C20_dynamic_rows`, `C20_static_rows`, `C20_columns` (Props/Query) |
| C21 | Simultaneously live queries never alias mutably | locks; *ind* over interleavings of lock operations | proved | `C21_no_alias`, `C21_references_apart`, `C21_static_steps`, `C21_dynamic_steps`, `C21_static_panic_steps`, `C21_dynamic_panic_steps`, `C21_drop_steps` (Props/Locks) |
| C22 | Locks are released and never leak | locks; *ind* over interleavings of lock operations | proved | `C22_static_drop`, `C22_dynamic_drop`, `C22_no_leak`, `C22_static_blocks`, `C22_dynamic_blocks`, `C22_static_creation`, `C22_dynamic_creation`, `C22_static_self_clash`, `C22_dynamic_self_clash`, `C22_dynamic_unused_twice` (Props/Locks) |
| C23 | A panic while iterating mutably poisons the component | locks; *ind* over interleavings of lock operations | proved | `C23_stays_poisoned`, `C23_poisoned_by`, `C23_static_poisons`, `C23_dynamic_poisons`, `C23_static_panics`, `C23_dynamic_panics`, `C23_call_ok`, `C23_call_panic`, `C23_for_ever`, `C23_later_queries`, `C22_static_creation`, `C22_dynamic_creation` (Props/Locks) |
| C24 | Order of with() calls does not matter | builder; *inv*, *ref* of builder scripts to lists of values | proved | `C24_order_irrelevant` (Props/Build) |
| C25 | Duplicate components are rejected | builder; the chain with `build` is compared with the chain without; *inv*, *wit* | partial | `C25_duplicates_panic_partial`, `C25_rejected_partial`, `C25_corrupted`, `C25_row_left_behind` (Props/Build) |
| C26 | A rejected call leaves the world intact | builder, dynamic adds; *inv*, *wit* | partial | `C26_rejected_partial`, `C26_stray_lock`, `C26_stray_only`, `C26_stray_always` (Props/Entity, Props/Exact) |
| C27 | A builder builds one entity | builder; *inv*, *wit*; exact number of rows by a walk through the code of the builder | partial | `C27_one_row_partial`, `C27_rows`, `C27_build_twice`, `C27_build_elsewhere`, `C27_build_again` (Props/Build, Props/Exact, Props/Safe) |
| C28 | Dropping a builder without building has no visible effect | builder; *inv*, *ref* of builder scripts to lists of values | proved | `C28_dropped_builder` (Props/Build) |
| C29 | Builder buffer reuse and capacity are unobservable | builder; *inv*, *ref* of builder scripts to lists of values | proved | `C29_buffer_unobservable` (Props/Build) |
| C30 | One table per component combination | archetype graph and its caches; *inv* | proved | `C30_one_table`, `C30_columns` (Props/Entity) |
| C31 | The add/remove edge cache is transparent | archetype graph and its caches; *inv* | proved | `C31_add_target`, `C31_remove_target` (Props/Components) |
| C32 | add then remove is the identity | add/remove; composition of C07/C08 | proved | `C32_add_remove`, `C32_remove_returns` (Props/Components) |
| C33 | Adding different components commutes | add/remove; composition of C07/C08 | proved | `C33_add_commutes`, `C33_add_dynamic_commutes` (Props/Components) |
| C34 | Every component value is dropped exactly once | ghost drop log; conservation law by *ind*, *wit* | partial | `C34_dropped_once_partial`, `C34_never_twice`, `C34_no_leak`, `C34_leak` (Props/Drops) |
| C35 | Zero sized components are dropped exactly once | ghost drop log; conservation law by *ind*, *wit* | partial | `C35_zero_sized_dropped_partial`, `C35_leak`, `C34_never_twice`, `C35_exact` (Props/Drops, Props/Exact) |
| C36 | add_component always takes effect | stale ids; *inv*, *wit* | partial | `C36_add_takes_effect_partial`, `C36_add_lost`, `C36_exact`, `C36_lost_always` (Props/Components, Props/Exact) |
| C37 | Despawning an entity used as a component removes it everywhere | stale ids; *inv*, *wit* | partial | `C37_despawned_unused_partial`, `C37_despawn_used_panics`, `C37_witness` (Props/Entity) |
| C38 | UntypedVec behaves like a list of values | `UntypedVec`; *ref* to lists by *ind* over its histories | proved | `C38_observe`, `C38_push`, `C38_pop`, `C38_swap_remove`, `C38_swap_move`, `C38_write`, `C38_realloc`, `C38_raw_len`, `C38_type_info` (Props/Accessors, Props/UntypedVec) |
| C39 | UntypedVec stays inside its allocation | `UntypedVec`; *ref* to lists by *ind* over its histories | proved | `C39_bounds`, `C39_no_oob`, `C39_dealloc`, `C39_drop_elements` (Props/UntypedVec) |
| C40 | pop on an empty UntypedVec returns false and drops nothing | `UntypedVec`; *ref* to lists, *wit* for zero-sized types | partial | `C40_pop_empty_partial`, `C40_zst_pop_violated`, `C40_violated` (Props/UntypedVec) |
| C41 | as_slice exposes exactly the elements | `UntypedVec`; *ref* to lists, *wit* for zero-sized types | partial | `C41_as_slice_partial`, `C41_zst_panics` (Props/UntypedVec) |
| C42 | Element pointers are aligned | `UntypedVec`; *ref* to lists, *wit* for zero-sized types | partial | `C42_aligned_partial`, `C42_slice_aligned_partial`, `C42_zst_align_one_partial`, `C42_zst_misaligned`, `C42_unpadded_misaligned`, `C42_empty_slice_misaligned` (Props/UntypedVec) |
| C43 | The bitset iterator yields exactly the common bits | bitsets; *ind* over words | proved | `C43_bitset_iter_exact` (Props/Bitset) |
| C44 | Iterators stay finished | bitset iterators; *ref* to sorted lists of indices | proved | `C44_static_fused`, `C44_dynamic_fused`, `C44_bitset_iter_fused` (Props/Bitset, Props/Query) |
| C45 | Bit vectors behave like maps from positions to bits | bitsets; *ind* over words | proved | `C45_get_bit`, `C45_total`, `C45_set_bit`, `C45_push_bit`, `C45_family`, `C45_family_total` (Props/Bitset) |
| C46 | The edge cache array is a bounded most-recent-first list | `ArrayVec`; *ref* to lists, *wit* for `pop` | partial | `C46_observe`, `C46_push_start`, `C46_push`, `C46_pop_faults`, `C46_pop_empty` (Props/ArrayVec) |
| C47 | index_twice_mut returns the two requested elements | `index_twice_mut`; *alg* | proved | `C47_index_twice`, `C47_index_twice_panics` (Props/ArrayVec) |
| C48 | Safe calls never touch memory out of bounds | all functions; *ind*: no call of any history ends in `Fault.ub` | proved | `C48_calls`, `C48_fuel`, `C48_drop`, `C48_static_refs`, `C48_get_refs`, `C48_dynamic_ptrs`, `C48_columns`, `C48_component_ptr` (Props/Safety) |
| C49 | Dead ids are inert | observers; *inv* | proved | `C49_dead_reads`, `C49_dead_writes` (Props/Entity) |
| C50 | Foreign ids are rejected without side effects | observers; *inv* | proved | `C50_foreign` (Props/Entity) |
| C51 | Spawning and despawning components keeps the population | allocator and queries; *ind* | proved | `C51_population`, `C51_creation`, `C51_histories` (Props/Population) |
| C52 | Storage growth is geometric | `UntypedVec`; *ref* to lists by *ind* over its histories | proved | `C52_growth`, `C52_peak` (Props/UntypedVec) |
| C53 | A panicking component destructor leaves the world consistent | `Model/Unwind`; *inv*, *wit* | partial | `C53_despawn`, `C53_remove_dynamic`, `C53_remove`, `C53_despawn_once_partial`, `C53_remove_dynamic_once_partial`, `C53_remove_once_partial`, `C53_drop_world`, `C53_drop_world_lost`, `C53_drop_world_aborted`, `C53_unwound_drop`, `C53_remove_unsound`, `C53_despawn_confused` (Props/Unwind) |
| C54 | Hashing of ids agrees with equality and never panics | `Model/Hash`; *alg* | proved | `C54_hash_ids`, `C54_hash_types`, `C54_hasher` (Props/Hash) |
| C55 | Component metadata is what was asked for and never changes | `ComponentMeta`, metadata of entities; *alg*, *ind* | proved | `C55_from_size_align`, `C55_spawned`, `C55_kept`, `C55_columns` (Props/Meta) |
| C56 | References to components are aligned | pointers and blocks; *inv*, *wit* for zero-sized types | partial | `C56_pointer_partial`, `C56_static_refs_partial`, `C56_get_refs_partial`, `C56_dynamic_ptrs_partial`, `C56_component_ptr_partial`, `C56_zst_misaligned`, `C56_safe_misaligned` (Props/Align) |
| C57 | The world cannot be told apart from plain maps | `AWorld` and all calls; *sim* (each call simulated by an update of maps), *ind* over programs | proved | `C57_new`, `C57_view`, `C57_call`, `C57_talk`, `C57_program`, `C57_query_rows`, `C57_query_get`, `C57_dynamic_rows` (Props/Refine) |
| C58 | Worlds that show the same behave the same | two worlds and one `AWorld`; from C57 | proved | `C58_same_answers`, `C58_same_rows`, `C58_same_dynamic_rows` (Props/Refine) |
| C59 | Calls about different entities commute | laws of `AWorld`, carried over by C57 | proved | `C59_commute`, `C59_add_remove`, `C59_write_write` (Props/Refine) |
| C60 | Tables, columns and locks are never removed or renumbered | every call keeps `TablesStay` (no invariant needed), then induction over `Later`; locks through the lock trace of C14 | proved | `C60_tables_stay`, `C60_capacities`, `C60_locks_stay` (Props/Tables) |
| C61 | Leaking queries and builders is safe | `Spec/Safe` extends the histories by leaks, live queries and rejected duplicates; *ind*, iterators by induction over `next` | proved | `C61_covers`, `C61_calls`, `C61_drop`, `C61_static`, `C61_get`, `C61_dynamic`, `C61_columns`, `C61_exclusive`, `C61_static_access`, `C61_dynamic_access`, `C61_one_buffer` (Props/Safe) |
| C62 | Ordinary programs stay inside the limits | `Spec/Limits` describes programs without assuming anything about limits; two traces through every call (generations and layouts, capacities) give bounds by induction; room to grow excludes every `Limit` fault by the specifications of the calls | proved | `C62_ordinary`, `C62_no_limit`, `C62_slots`, `C62_memory`, `C62_too_large`, `C62_safe`, `C62_safe_calls`, `C62_safe_drop`, `C62_covers` (Props/Limits) |
| C63 | Loops over queries | `Spec/System` runs the loop pointer by pointer (`ForEach`) and says what it is meant to do on maps (`AWorld.sweep`, `each`); induction over the rows, with C14/C15 for the rows, C12 for the stores and C22 for the locks | proved | `C63_static`, `C63_dynamic`, `C63_one_result`, `C63_static_each`, `C63_dynamic_each` (Props/System) |
| C64 | Loops over live queries do not disturb each other | `Spec/Interleave` lets loops take turns one access at a time; invariant: the world agrees with the private world of each loop on every component that loop has access to (C21 keeps the others out); a measure bounds the turns | proved | `C64_interleaved`, `C64_finish`, `C64_any_order`, `C64_commute` (Props/Interleave) |
| C65 | Programs can be proved correct without looking at tables | `Spec/Program` has the programs (`Prog`), their execution on the tables (`Exec`) and the logic (`Prog.wp`), which also tracks the combinations of components entities had (they bound the number of tables by C66) and the obligations of callers in terms of maps; induction over programs with C57 for calls, C63 for loops over rows, C80 for loops over columns, C14 for look-ups, C61 for the limits | proved | `C65_sound`, `C65_new`, `C65_one_result`, `C65_every`, `C65_mono`, `C65_bind` (Props/Program) |
| C66 | There is a table only for combinations of components that entities had | `Spec/Shapes`; a walk through all code paths shows that a table is only pushed together with a row that stays in it (calls that register a type and then move an entity create up to two tables and rows of both kinds); the count is the pigeonhole principle on top of C30 | proved | `C66_needed`, `C66_panic`, `C66_covers`, `C66_count` (Props/Shapes) |
| C67 | A world is a database of entities with values | `Spec/Database` has the databases (`Db`), the programs (`Script`, compiled to the programs of C65) and the logic (`Script.wp`); a simulation between database and maps (`Sim`: one entity per type in use, all other entities in the database) is kept by every step, then C65 | proved | `C67_sound`, `C67_every`, `C67_mono`, `C67_bind`, `C67_forEachIn`, `C67_times` (Props/Script) |
| C68 | The playground and the benchmarks of typed components do what they say | `Spec/Clients` has the programs as scripts of C67; loops by invariants in the logic (`C67_times`, `C67_forEachIn`), first for all rows and then for those of the repository | proved | `C68_iter`, `C68_insert`, `C68_add_remove`, `C68_get`, `C68_padded_get`, `C68_data`, `C68_frag_iter`, `C68_frag_iter_padding`, `C68_simple_iter`, `C68_large_iter`, `C68_inserts`, `C68_add_remove_benches`, `C68_playground`, `C68_padded_get_bench` (Props/Clients) |
| C69 | A program logic for the whole API | `Spec/Session` has the ledgers, the programs (`Session`, compiled to the programs of C65) and the logic (`Session.wp`); `LedgerAt` relates ledgers and maps and is kept by every step (typed queries are reduced to dynamic ones), then C65; `C69_bind`, `C69_times`, `C69_forEachIn` are the rules for composing | proved | `C69_sound`, `C69_every`, `C69_mono`, `C69_bind`, `C69_forEachIn`, `C69_times` (Props/Session) |
| C70 | The benchmarks of dynamic components do what they say | `Spec/DynClients` has the programs as sessions of C69, components given by the position of their id; loops by invariants in the logic (`C69_times`), first for all metadata, rows, queries and bodies and then for those of the repository | proved | `C70_iter`, `C70_data`, `C70_frag_iter`, `C70_frag_iter_padding`, `C70_simple_iter`, `C70_large_iter` (Props/DynClients) |
| C71 | The capacity of an UntypedVec stays below isize::MAX | *ind*, *alg*: the growth of the capacity over all histories of one vec; *wit* for elements of `2^61` bytes | partial | `C71_push_exact`, `C71_capacity_partial`, `C71_first_block_unchecked` (Props/UntypedVec) |
| C72 | The order of iteration follows from the calls | `Spec/Order` has the lines and the rules; the effect of every function on the list of (components, entities) of the tables is proved relationally, then read through `HasComp` of the new world; queries by C14-C16 and the fact that sorted lists are determined by their members | proved | `C72_new`, `C72_calls`, `C72_panic`, `C72_panic_exact`, `C72_proper`, `C72_determined`, `C72_static_order`, `C72_dynamic_order`, `C72_stable`, `C72_leave` (Props/Order) |
| C73 | Building with components is the same as adding them one by one | *sim* (C57) reduces it to the map world; there each call on the draft and the same call on the finished entity commute with `finish` | proved | `C73_split`, `C73_one_by_one` (Props/Split) |
| C74 | Calls that are undone or overridden leave no trace | *sim* (C57) and laws of the map world: calls about one entity change only its row, the components in use and the locks | proved | `C74_write_same`, `C74_remove_add`, `C74_write_remove`, `C74_then_despawn`, `C74_spawn_despawn` (Props/Undo) |
| C75 | Which destructors run, and in which order, follows from the calls | `Spec/Fate` has the drop calls of a call in terms of the maps, and of the end of a world in terms of the lines of C72; the log of every call from its specification, *sim* (C57) for the conversation; uniqueness since sorted lists are determined by their members; for sessions *ind* over the program: every entity has each component once in the ledger | proved | `C75_call`, `C75_talk`, `C75_unique`, `C75_same`, `C75_world`, `C75_loop`, `C75_session` (Props/Fate) |
| C76 | Every edge between tables is searched for at most once | every call takes the cache of every table through look-ups and insertions after a look-up that found nothing, by going through the code of all calls; *ind* over these steps gives what is kept and what the array holds; the entity that moved from its specification (C72) | proved | `C76_learns`, `C76_keeps`, `C76_right`, `C76_follows`, `C76_recent`, `C76_array`, `C76_once` (Props/Edges) |
| C77 | Data is opaque to the world | a logical relation (`Spec/Opaque`) between the maps of C57; every operation of the map world preserves it, hence *sim* for both worlds; drop calls by C75; the lines by C72 and its uniqueness, for panics by who enters (`PanicLines`) and a count of the rows | proved | `C77_talk`, `C77_order`, `C77_program`, `C77_askers`, `C77_rows`, `C77_rows_dynamic`, `C77_end` (Props/Opaque) |
| C78 | An ArrayVec owns its elements | `Model/ArrayVecDrop`; induction over the calls, a permutation between the values handed over and those inside or dropped; *wit* | partial | `C78_once_partial`, `C78_inventory`, `C78_calls`, `C78_twice`, `C78_leak` (Props/ArrayVecDrop) |
| C79 | Printed ids can be told apart | `Model/Text`; *alg*: digits by strong induction, texts by the lengths of their parts | proved | `C79_digits`, `C79_display_reads`, `C79_distinct`, `C79_parts` (Props/Text) |
| C80 | Loops over columns | `ForEachColumn` and `AWorld.sweepLines` (`Spec/Columns`); induction over the tables that are visited, each store by the specification of a write (C57); rows by C16's tables.  The fields of `PtrLen` are private (dyn_query.rs:54-56), so outside of its module a body has to reinterpret the `repr(C)` pair to get at them | proved | `C80_rows`, `C80_loop`, `C80_one_result`, `C80_row_bodies` (Props/Columns) |
| C81 | A family of UntypedVecs owns its values | `Owner` (`Spec/VecOwner`): a family of vecs with a ledger of what was handed in, taken out, dropped and left behind by drops that unwind; induction over the history with C38's specifications, counting for each possible drop call (`Owner.books`, for an arbitrary way of counting values) | partial | `C81_inventory`, `C81_once_partial`, `C81_end_partial`, `C81_never_twice_partial`, `C81_unwind`, `C81_values_partial`, `C81_function`, `C81_wrong_function`, `C81_leak`, `C81_ghost` (Props/VecOwner) |
| C82 | A destructor that panics harms at most two entities | `Confined` says what stays the same for the others: liveness, the type map, row, components and `get_component_mut_dynamic`. Proofs/Torn.lean computes the world an unwound call leaves (`DespawnTorn`, `RemoveTorn`) and shows that it differs from the world before only in two rows of one table (`Torn`). Beside that: the id of an unwound `despawn` is stuck (`C82_despawn_stuck`), and exact descriptions of the two entities that are harmed, with the pointers handed out for them (`C82_despawn_mixed`, `C82_remove_shifted`). | proved | `C82_despawn_confined`, `C82_remove_dynamic_confined`, `C82_remove_confined`, `C82_despawn_stuck`, `C82_despawn_mixed`, `C82_remove_shifted` (Props/Torn) |
| C83 | After a despawn that unwound, queries and further despawns are memory safe; spawning is not | `Drained w u` (Spec/Drained.lean) lists what the program may do, with every panic. The invariant that survives is `Loose` (Proofs/Drained.lean): the columns have at least as many rows as the list of entities, rows are of distinct live entities, metadata may be stale. `Wide` is the part of it that the iterators need; the cell lemmas of Proofs/Query.lean and Proofs/Safe.lean are proved from `Wide`, so they serve C48, C61 and C83 alike. `C83_spawn_unsound` is the witness that spawning breaks the bound: `build` extends the list of entities and panics before it has extended every column. | proved | `C83_despawn`, `C83_conserved`, `C83_drop`, `C83_query_fault`, `C83_static`, `C83_get`, `C83_dynamic`, `C83_columns`, `C83_component_ptr`, `C83_spawn_unsound` (Props/Drained) |
| C84 | A world's memory is bounded by its peak | `Census w n` (Spec/Peak) lists the ids for which `is_alive` answers true; `Peak w n` is a history with the maximum of the census after each call. `exec_room` (Proofs/Peak, from the per-call trace of Proofs/GenTrace) shows for every call that slots are added only if the free list is empty at the end; `despawn` adds none. With `Entities.Wf` the free list and the live ids partition the slots below 2^32, so the slots are the maximum. Slots beyond 2^32 exist only after `spawn` panicked for want of ids, hence `min _ (2^32)`. The capacity of columns is C62's bound. Not covered: the capacity of the `Vec`s of the standard library (`generations`, `metas`, `entities` of a table), which the model has as lists; locks and bit vectors, which grow with the components and tables, not with the peak. | proved | `C84_slots`, `C84_peak`, `C84_free`, `C84_census`, `C84_memory`, `C84_steady` (Props/Peak) |
| C85 | An id without an entity is lost for ever | ind. `exec_strays` (Proofs/Stray): each call keeps every id that is alive without a row alive and without a row, from the specifications of the calls (Proofs/SpawnWith, Typed, Ops, Despawn) and `Intact` for those that panic. What single calls answer follows from the same specifications. `C85_leak`: the worlds `hollow n` by induction on n. | proved | `C85_arises`, `C85_forever`, `C85_despawn`, `C85_components`, `C85_leak` (Props/Stray) |
| C86 | Memory safety ends when a generation wraps around | wit, alg. The worlds `full t g` and `husk` (Proofs/Wrap) have one slot with generation g; building and despawning moves from g to g+1 modulo 2^32, for symbolic g (`spawn_husk`, `despawn_full`), so `revive_returns` is an induction on the number of recyclings. The last spawn and the query are evaluated with the type, the value and its size as parameters. `C86_before`: the same worlds with n+1 < 2^32 are `Reachable`. | proved | `C86_revived`, `C86_unsound`, `C86_before` (Props/Wrap) |
| C87 | Recycling is harmless while types live | *ind*. The specifications of the calls (`exec_spec` and those below it) need only that no slot of a type id is free with its last generation (`World.Ready`; `Entities.Kept` replaces `Known` for ids that stay unique), so `Safe` is stated with `NoFullType`. `exec_types`: no call but `despawn` of a type id makes a type id dead, hence `Lasting` implies `Safe`. `C87_beyond`: the worlds `husk` of C86 without a type. | proved | `C87_safe`, `C87_calls`, `C87_drop`, `C87_types`, `C87_beyond` (Props/Lasting) |
| C88 | The world cannot be told apart from plain maps, however long the program | *sim*, *ind*. The simulation of C57 and the drop log of C75 need only `World.Ready`, not that no slot is used up; `TypesLive` (C87) gives it. For queries: `exec_locked`, a lock belongs to a component in use or to an entity that is alive and was never built, and such an entity can never be despawned, so its id is not handed out again (this replaces `Tidy`). `C88_again`: the worlds `husk` of C86. | proved | `C88_lasting`, `C88_view`, `C88_call`, `C88_talk`, `C88_program`, `C88_query_rows`, `C88_query_get`, `C88_dynamic_rows`, `C88_again` (Props/Endless) |
| C89 | An id comes back only after every id of its slot was despawned | *sim*, *ind*. Only `spawn` and `despawn` of the allocator change the allocator of the plain maps (`ask_moves`), and by C88 the world has the allocator of the maps. `Aged`: since a slot had generation `g` it was taken back with all generations before the present one; `Within`: each question moves a slot by at most half a generation. Both survive every question (`FreeTalk.track`, `FreeTalk.within`). | proved | `C89_covers`, `C89_born`, `C89_stays`, `C89_again`, `C89_reborn`, `C89_dead`, `C89_types`, `C89_program`, `C89_sharp` (Props/Rebirth) |
| C90 | A component holds the value that was put there last | *sim*, *ind*. On the plain maps: a question that does not involve an entity changes nothing about it if it is alive (`ask_fr`: new ids differ from ids that are alive), and otherwise its cells change as `touch` says (`ask_touch`). By C88 and C89 this carries over to conversations; types keep their ids (`FreeTalk.keeps`), so the ids at the end serve for the whole conversation. | proved | `C90_latest`, `C90_look`, `C90_untouched`, `C90_metadata` (Props/Latest) |
| C91 | What a typed program must expect | *sim*, *ind*. On the plain maps, with the invariant `Good` (values belong to built entities and living components, ids of types are not handed out again): registrations change no value of any type (`register_good`), a chain of calls on a builder collects the values (`acts_given`), every other question changes values as `tell` says (`ask_tell`), and the id of the type stays alive (`ask_lives`). By C88 and C89 this carries over to conversations. For queries, `Locked` (only types with a lock entry that are used or unbuilt) is followed along the conversation (`FreeTalk.locked`), so that the proof of C88 applies to the types in question. | proved | `C91_told`, `C91_start`, `C91_seen`, `C91_types`, `C91_rows`, `C91_get` (Props/Told) |
| C92 | A component through the lives of an entity | *sim*, *ind*. On the plain maps one question changes whether `e` has metadata, and its cell of `c`, as `pass` says (`ask_pass`): if `e` is in the world this is `ask_touch` of C90, else only a builder can bring it in (`ask_none`), and a chain of calls on it collects the values (`acts_offers`, `spawn_pass`). A component that was just built is in no cell (`fresh_component`), because an id without metadata cannot be given to a builder (`acts_misses`). `life` folds the whole conversation, the birth of the component included (`life_born`); the rows of a dynamic query are those of C88's plain maps (`rowDyn_life`), for worlds in a `FreeTalk` through `dynamic_main`. | proved | `C92_course`, `C92_there`, `C92_fresh`, `C92_program`, `C92_seen`, `C92_kept`, `C92_life`, `C92_rows` (Props/Lives) |

No property of the list is inexpressible in the model.

## Notes on single properties

* C21-C23: the locks are acquired one by one; `LockRun` is the relation of all interleavings of acquiring and releasing
  single locks by any number of live queries, and the modelled query functions are proved to be such runs.
* C34: `Hist` records for every call which drop calls the program owes for the values it handed over; conservation says
  that the log, the values still stored and the values lost are together exactly the values given.
* C48: `Fault.ub` is not the result of any call in any history nor of creating, iterating or dropping a query.
* C51: the population is defined by the calls and their results alone.
* C68: in `frag_iter_20_padding_20` (bench_static.rs:22) `spawn_entity(&mut $world, $x)` passes the constructor of the
  struct, not a struct: the first component of each entity is a function item without bytes instead of an `f32`.  The
  benchmark still has 26 tables, but 4 bytes less in each row than `bench_dynamic.rs` has.
* `Calm` histories have no panic, `Reachable` ones may have any number of caught panics.

## Testing the theorems

`seeded/LOG.jsonl`: bugs put into a scratch copy of the model, one at a time.  The first lines are bugs made by hand, the
others are generated: a mutation program edits one token of a definition (`+` to `-`, `<` to `≤`, `true` to `false`, one
variable for another of the same type, and so on).  `falsified_by_run`
lists the properties which a small executable checker (random and directed call sequences, in `seeded/check.lean.txt`, for
the later properties in `seeded/check*.lean.txt`) saw broken, `claim_broken` the properties the bug is taken to
break.  `basis` says on what ground: `run` (the checker saw all of them broken), `run for some` (it saw some property
broken, not all the listed ones), `intended` (the author of the bug aimed at them; no run confirmed it), `dependency`
(only: a lemma their proofs use stopped proving.  That is no evidence that the property itself is false of the edited
program; some of these edits may be harmless) and `none`.  A bug counts as tested against a theorem only where `basis` is
`run`.  Where `failed` is not empty and
`failed_claims` is (more than 200 lines, the later ones among them), the dependent theorems were not computed: these lines show that
the edited program is rejected, not which theorem rejects it.  The other fields:
`failed` the lemmas that stopped proving, `failed_claims` the theorems of the manifest that depend on them, `tightened` the
theorems that were added or strengthened because the bug was not noticed.  `note` says why an edit that is not noticed
breaks no claim (for instance because the two programs are equal).
