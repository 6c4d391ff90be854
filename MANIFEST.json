{"claims": [
 {"property": "C01", "status": "proved", "theorems": ["Ellecs.Alloc.C01_ids_unique", "Ellecs.Alloc.C01_bound_exact"], "note": "Unique while no slot is recycled 2^32 times; the bound is tight."},
 {"property": "C02", "status": "proved", "theorems": ["Ellecs.Alloc.C02_is_alive_exact", "Ellecs.Alloc.C02_is_alive_total", "Ellecs.Alloc.C02_handle_alive_until_despawned"], "note": ""},
 {"property": "C03", "status": "proved", "theorems": ["Ellecs.Alloc.C03_despawn_once"], "note": ""},
 {"property": "C04", "status": "proved", "theorems": ["Ellecs.Alloc.C04_spawn_recycles"], "note": ""},
 {"property": "C05", "status": "proved", "theorems": ["Ellecs.Alloc.C05_eq_iff", "Ellecs.Alloc.C05_lt_iff", "Ellecs.Alloc.C05_total_order"], "note": ""},
 {"property": "C06", "status": "proved", "theorems": ["Ellecs.WorldSpec.C06_build_exact", "Ellecs.WorldSpec.C06_build_succeeds", "Ellecs.WorldSpec.C06_one_value", "Ellecs.WorldSpec.C06_spawn_macro"], "note": "for every reachable world; C06_build_succeeds says when the chain returns"},
 {"property": "C07", "status": "proved", "theorems": ["Ellecs.WorldSpec.C07_add_exact", "Ellecs.WorldSpec.C07_add_succeeds", "Ellecs.WorldSpec.C07_add_dynamic_exact", "Ellecs.WorldSpec.C07_add_zero_sized_exact", "Ellecs.WorldSpec.C07_add_dynamic_succeeds"], "note": "For every reachable world; typed, dynamic and zero-sized variants; success of all three is proved unless memory runs out."},
 {"property": "C08", "status": "proved", "theorems": ["Ellecs.WorldSpec.C08_remove_exact", "Ellecs.WorldSpec.C08_remove_succeeds", "Ellecs.WorldSpec.C08_remove_dynamic_exact", "Ellecs.WorldSpec.C08_remove_dynamic_succeeds"], "note": "For every reachable world; typed and dynamic variants; success of both is proved unless memory runs out."},
 {"property": "C09", "status": "proved", "theorems": ["Ellecs.WorldSpec.C09_despawn_exact", "Ellecs.WorldSpec.C09_despawn_succeeds"], "note": "For every reachable world."},
 {"property": "C10", "status": "proved", "theorems": ["Ellecs.WorldSpec.C10_ids_stable_distinct", "Ellecs.WorldSpec.C10_info"], "note": "Across any number of further calls, including panicking ones."},
 {"property": "C11", "status": "proved", "theorems": ["Ellecs.WorldSpec.C11_has_component_exact", "Ellecs.WorldSpec.C11_has_alive"], "note": "The model of has_component takes the world and returns no world, so it cannot change it."},
 {"property": "C12", "status": "partial", "theorems": ["Ellecs.WorldSpec.C12_get_component_partial", "Ellecs.WorldSpec.C12_pointer_reads", "Ellecs.WorldSpec.C12_absent_panics"], "note": "Violated: for a live entity without the component the call panics instead of returning None (C12_absent_panics, for every such world). The other clauses are proved."},
 {"property": "C13", "status": "proved", "theorems": ["Ellecs.WorldSpec.C13_get_exact"], "note": "Every reachable world (locks in any state a live query can leave), every tuple of parameters, every id."},
 {"property": "C14", "status": "proved", "theorems": ["Ellecs.WorldSpec.C14_iter_exact", "Ellecs.WorldSpec.C14_values_irrelevant", "Ellecs.WorldSpec.C14_loop_body"], "note": "Includes termination, order independence of values, and a loop body that writes through the yielded references."},
 {"property": "C15", "status": "proved", "theorems": ["Ellecs.WorldSpec.C15_iter_exact"], "note": ""},
 {"property": "C16", "status": "proved", "theorems": ["Ellecs.WorldSpec.C16_columns_exact"], "note": ""},
 {"property": "C17", "status": "proved", "theorems": ["Ellecs.WorldSpec.C17_static_dynamic_agree"], "note": ""},
 {"property": "C18", "status": "partial", "theorems": ["Ellecs.WorldSpec.C18_dynamic_absent", "Ellecs.WorldSpec.C18_dynamic_creation", "Ellecs.WorldSpec.C18_static_unregistered", "Ellecs.WorldSpec.C18_static_absent_partial", "Ellecs.WorldSpec.C18_static_unused_panics", "Ellecs.WorldSpec.C18_static_unused_poisons", "Ellecs.WorldSpec.C18_static_creation", "Ellecs.WorldSpec.C18_static_unused_fails"], "note": "The code violates the property: a static query of a type that has an id but was never on an entity panics (C18_static_unused_panics) and poisons other locks (C18_static_unused_poisons). Proved for dynamic queries and for static queries with an unregistered type; C18_static_absent_partial has the remaining hypothesis that every requested component was used. C18_static_creation and C18_static_unused_fails say exactly for which static queries it fails."},
 {"property": "C19", "status": "proved", "theorems": ["Ellecs.WorldSpec.C19_write_frame"], "note": "For every pointer to a cell and every value of the right size."},
 {"property": "C20", "status": "proved", "theorems": ["Ellecs.WorldSpec.C20_apart", "Ellecs.WorldSpec.C20_dynamic_rows", "Ellecs.WorldSpec.C20_static_rows", "Ellecs.WorldSpec.C20_columns"], "note": ""},
 {"property": "C21", "status": "proved", "theorems": ["Ellecs.WorldSpec.C21_no_alias", "Ellecs.WorldSpec.C21_references_apart", "Ellecs.WorldSpec.C21_static_steps", "Ellecs.WorldSpec.C21_dynamic_steps", "Ellecs.WorldSpec.C21_static_panic_steps", "Ellecs.WorldSpec.C21_dynamic_panic_steps", "Ellecs.WorldSpec.C21_drop_steps"], "note": "Over all interleavings of single lock acquisitions and releases (LockRun); the _steps theorems show that the modelled query functions are such runs."},
 {"property": "C22", "status": "proved", "theorems": ["Ellecs.WorldSpec.C22_static_drop", "Ellecs.WorldSpec.C22_dynamic_drop", "Ellecs.WorldSpec.C22_no_leak", "Ellecs.WorldSpec.C22_static_blocks", "Ellecs.WorldSpec.C22_dynamic_blocks", "Ellecs.WorldSpec.C22_static_creation", "Ellecs.WorldSpec.C22_dynamic_creation", "Ellecs.WorldSpec.C22_static_self_clash", "Ellecs.WorldSpec.C22_dynamic_self_clash", "Ellecs.WorldSpec.C22_dynamic_unused_twice"], "note": "C22_dynamic_unused_twice is the corner named in the statement."},
 {"property": "C23", "status": "proved", "theorems": ["Ellecs.WorldSpec.C23_stays_poisoned", "Ellecs.WorldSpec.C23_poisoned_by", "Ellecs.WorldSpec.C23_static_poisons", "Ellecs.WorldSpec.C23_dynamic_poisons", "Ellecs.WorldSpec.C23_static_panics", "Ellecs.WorldSpec.C23_dynamic_panics", "Ellecs.WorldSpec.C23_call_ok", "Ellecs.WorldSpec.C23_call_panic", "Ellecs.WorldSpec.C23_for_ever", "Ellecs.WorldSpec.C23_later_queries", "Ellecs.WorldSpec.C22_static_creation", "Ellecs.WorldSpec.C22_dynamic_creation"], "note": "A creation that panics also poisons the components it already had mutable access to (C23_call_panic)."},
 {"property": "C24", "status": "proved", "theorems": ["Ellecs.WorldSpec.C24_order_irrelevant"], "note": "component ids of types first used in the chain may differ; values are compared per type"},
 {"property": "C25", "status": "partial", "theorems": ["Ellecs.WorldSpec.C25_duplicates_panic_partial", "Ellecs.WorldSpec.C25_rejected_partial", "Ellecs.WorldSpec.C25_corrupted", "Ellecs.WorldSpec.C25_row_left_behind"], "note": "build always panics. Exactly characterised: if no table has as many components as were supplied and contains all of them, the panic is clean (C25_rejected_partial: no row, every sized value dropped once, only locks added); otherwise a half inserted row is always left behind (C25_corrupted, witness C25_row_left_behind)."},
 {"property": "C26", "status": "partial", "theorems": ["Ellecs.WorldSpec.C26_rejected_partial", "Ellecs.WorldSpec.C26_stray_lock", "Ellecs.WorldSpec.C26_stray_only", "Ellecs.WorldSpec.C26_stray_always"], "note": "Proved for every panicking call. Violated in a corner: a rejected dynamic add of an unbuilt component leaves a lock behind that makes later dynamic queries panic (C26_stray_lock). C26_stray_only and C26_stray_always say exactly which call leaves the stray lock, and that it always does."},
 {"property": "C27", "status": "partial", "theorems": ["Ellecs.WorldSpec.C27_one_row_partial", "Ellecs.WorldSpec.C27_rows", "Ellecs.WorldSpec.C27_build_twice", "Ellecs.WorldSpec.C27_build_elsewhere", "Ellecs.WorldSpec.C27_build_again"], "note": "violated by the code: witnesses C27_build_twice, C27_build_elsewhere and C27_build_again; the entity gets exactly as many rows as build is called (C27_rows), so the claim holds when build is called at most once per builder"},
 {"property": "C28", "status": "proved", "theorems": ["Ellecs.WorldSpec.C28_dropped_builder"], "note": ""},
 {"property": "C29", "status": "proved", "theorems": ["Ellecs.WorldSpec.C29_buffer_unobservable"], "note": ""},
 {"property": "C30", "status": "proved", "theorems": ["Ellecs.WorldSpec.C30_one_table", "Ellecs.WorldSpec.C30_columns"], "note": "For every reachable world, whatever the number of tables: any two of the first 2^32 tables differ (table numbers are u32)."},
 {"property": "C31", "status": "proved", "theorems": ["Ellecs.WorldSpec.C31_add_target", "Ellecs.WorldSpec.C31_remove_target"], "note": "The row ends in the one table of the new component set."},
 {"property": "C32", "status": "proved", "theorems": ["Ellecs.WorldSpec.C32_add_remove", "Ellecs.WorldSpec.C32_remove_returns"], "note": "Remove after add restores the observable world and returns the added value."},
 {"property": "C33", "status": "proved", "theorems": ["Ellecs.WorldSpec.C33_add_commutes", "Ellecs.WorldSpec.C33_add_dynamic_commutes"], "note": "Adding two components in either order gives worlds that look alike."},
 {"property": "C34", "status": "partial", "theorems": ["Ellecs.WorldSpec.C34_dropped_once_partial", "Ellecs.WorldSpec.C34_never_twice", "Ellecs.WorldSpec.C34_no_leak", "Ellecs.WorldSpec.C34_leak"], "note": "Proved for every history: each value is dropped exactly once or is listed as lost by add_component, and never twice. Violated through C36: add_component on a despawned component type leaks its argument (C34_leak)."},
 {"property": "C35", "status": "partial", "theorems": ["Ellecs.WorldSpec.C35_zero_sized_dropped_partial", "Ellecs.WorldSpec.C35_leak", "Ellecs.WorldSpec.C34_never_twice", "Ellecs.WorldSpec.C35_exact"], "note": "Violated: zero-sized values in the world when it is dropped are never dropped (C35_leak). Proved: remove and despawn drop them exactly once, and C34_never_twice covers them. C35_exact says exactly which drops are missing."},
 {"property": "C36", "status": "partial", "theorems": ["Ellecs.WorldSpec.C36_add_takes_effect_partial", "Ellecs.WorldSpec.C36_add_lost", "Ellecs.WorldSpec.C36_exact", "Ellecs.WorldSpec.C36_lost_always"], "note": "Violated: add_component of a type whose component entity was despawned returns without doing anything (C36_add_lost). Proved when the component entity is alive. C36_exact and C36_lost_always say exactly when the call is lost."},
 {"property": "C37", "status": "partial", "theorems": ["Ellecs.WorldSpec.C37_despawned_unused_partial", "Ellecs.WorldSpec.C37_despawn_used_panics", "Ellecs.WorldSpec.C37_witness"], "note": "Violated: despawn of a used component entity always panics with the world unchanged. Proved: whatever is despawned is no component of any entity."},
 {"property": "C38", "status": "proved", "theorems": ["Ellecs.VecSpec.C38_observe", "Ellecs.VecSpec.C38_push", "Ellecs.VecSpec.C38_pop", "Ellecs.VecSpec.C38_swap_remove", "Ellecs.VecSpec.C38_swap_move", "Ellecs.VecSpec.C38_write", "Ellecs.VecSpec.C38_realloc", "Ellecs.VecSpec.C38_raw_len", "Ellecs.VecSpec.C38_type_info"], "note": ""},
 {"property": "C39", "status": "proved", "theorems": ["Ellecs.VecSpec.C39_bounds", "Ellecs.VecSpec.C39_no_oob", "Ellecs.VecSpec.C39_dealloc", "Ellecs.VecSpec.C39_drop_elements"], "note": ""},
 {"property": "C40", "status": "partial", "theorems": ["Ellecs.VecSpec.C40_pop_empty_partial", "Ellecs.VecSpec.C40_zst_pop_violated", "Ellecs.VecSpec.C40_violated"], "note": "The claim is false for zero sized elements: pop on an empty vec returns true and calls the drop function (C40_zst_pop_violated, C40_violated). Proved for elements of non-zero size."},
 {"property": "C41", "status": "partial", "theorems": ["Ellecs.VecSpec.C41_as_slice_partial", "Ellecs.VecSpec.C41_zst_panics"], "note": "The claim is false for zero sized elements: as_slice panics (C41_zst_panics). Proved for elements of non-zero size."},
 {"property": "C42", "status": "partial", "theorems": ["Ellecs.VecSpec.C42_aligned_partial", "Ellecs.VecSpec.C42_slice_aligned_partial", "Ellecs.VecSpec.C42_zst_align_one_partial", "Ellecs.VecSpec.C42_zst_misaligned", "Ellecs.VecSpec.C42_unpadded_misaligned", "Ellecs.VecSpec.C42_empty_slice_misaligned"], "note": "The claim is false for zero sized types with alignment > 1, for hand-made layouts whose size is not a multiple of the alignment, and for the empty slice of a vec that never had an element (address 1); proved otherwise."},
 {"property": "C43", "status": "proved", "theorems": ["Ellecs.BitSpec.C43_bitset_iter_exact"], "note": ""},
 {"property": "C44", "status": "proved", "theorems": ["Ellecs.WorldSpec.C44_static_fused", "Ellecs.WorldSpec.C44_dynamic_fused", "Ellecs.BitSpec.C44_bitset_iter_fused"], "note": ""},
 {"property": "C45", "status": "proved", "theorems": ["Ellecs.BitSpec.C45_get_bit", "Ellecs.BitSpec.C45_total", "Ellecs.BitSpec.C45_set_bit", "Ellecs.BitSpec.C45_push_bit", "Ellecs.BitSpec.C45_family", "Ellecs.BitSpec.C45_family_total"], "note": ""},
 {"property": "C46", "status": "partial", "theorems": ["Ellecs.ArraySpec.C46_observe", "Ellecs.ArraySpec.C46_push_start", "Ellecs.ArraySpec.C46_push", "Ellecs.ArraySpec.C46_pop_faults", "Ellecs.ArraySpec.C46_pop_empty"], "note": "pop is wrong for every non-empty array (C46_pop_faults); the rest of the claim is proved."},
 {"property": "C47", "status": "proved", "theorems": ["Ellecs.ArraySpec.C47_index_twice", "Ellecs.ArraySpec.C47_index_twice_panics"], "note": ""},
 {"property": "C48", "status": "proved", "theorems": ["Ellecs.WorldSpec.C48_calls", "Ellecs.WorldSpec.C48_fuel", "Ellecs.WorldSpec.C48_drop", "Ellecs.WorldSpec.C48_static_refs", "Ellecs.WorldSpec.C48_get_refs", "Ellecs.WorldSpec.C48_dynamic_ptrs", "Ellecs.WorldSpec.C48_columns", "Ellecs.WorldSpec.C48_component_ptr"], "note": "Also after panics; iteration of queries is covered for fewer than 2^32 archetypes."},
 {"property": "C49", "status": "proved", "theorems": ["Ellecs.WorldSpec.C49_dead_reads", "Ellecs.WorldSpec.C49_dead_writes"], "note": "Both as the entity and as the component argument."},
 {"property": "C50", "status": "proved", "theorems": ["Ellecs.WorldSpec.C50_foreign"], "note": "Every entry point that consults is_alive."},
 {"property": "C51", "status": "proved", "theorems": ["Ellecs.WorldSpec.C51_population", "Ellecs.WorldSpec.C51_creation", "Ellecs.WorldSpec.C51_histories"], "note": "The population is defined by the calls and their results alone; every reachable world has one (C51_histories) and query::<(EcsIds,)> yields it exactly."},
 {"property": "C52", "status": "proved", "theorems": ["Ellecs.VecSpec.C52_growth", "Ellecs.VecSpec.C52_peak"], "note": ""},
 {"property": "C53", "status": "partial", "theorems": ["Ellecs.WorldSpec.C53_despawn", "Ellecs.WorldSpec.C53_remove_dynamic", "Ellecs.WorldSpec.C53_remove", "Ellecs.WorldSpec.C53_despawn_once_partial", "Ellecs.WorldSpec.C53_remove_dynamic_once_partial", "Ellecs.WorldSpec.C53_remove_once_partial", "Ellecs.WorldSpec.C53_drop_world", "Ellecs.WorldSpec.C53_drop_world_lost", "Ellecs.WorldSpec.C53_drop_world_aborted", "Ellecs.WorldSpec.C53_unwound_drop", "Ellecs.WorldSpec.C53_remove_unsound", "Ellecs.WorldSpec.C53_despawn_confused"], "note": "Violated by the code: after a remove_component that unwinds a safe query is undefined behaviour (C53_remove_unsound), after a despawn that unwinds ids are confused (C53_despawn_confused). Proved: which destructors run, that no value is dropped twice and none is lost, and what a panicking world drop does, column by column, when it unwinds and when it aborts; whether a destructor panics may depend on those that ran before."},
 {"property": "C54", "status": "proved", "theorems": ["Ellecs.HashSpec.C54_hash_ids", "Ellecs.HashSpec.C54_hash_types", "Ellecs.HashSpec.C54_hasher"], "note": "Justifies modelling the HashMaps as functions of the key."},
 {"property": "C55", "status": "proved", "theorems": ["Ellecs.WorldSpec.C55_from_size_align", "Ellecs.WorldSpec.C55_spawned", "Ellecs.WorldSpec.C55_kept", "Ellecs.WorldSpec.C55_columns"], "note": "Over all later histories, including panicking calls."},
 {"property": "C56", "status": "partial", "theorems": ["Ellecs.WorldSpec.C56_pointer_partial", "Ellecs.WorldSpec.C56_static_refs_partial", "Ellecs.WorldSpec.C56_get_refs_partial", "Ellecs.WorldSpec.C56_dynamic_ptrs_partial", "Ellecs.WorldSpec.C56_component_ptr_partial", "Ellecs.WorldSpec.C56_zst_misaligned", "Ellecs.WorldSpec.C56_safe_misaligned"], "note": "Violated: references to zero sized values with alignment above 1 have address 1 (C56_zst_misaligned for every such value, C56_safe_misaligned for a program without unsafe); hand made unpadded layouts as in C42. Proved for everything else."},
 {"property": "C57", "status": "proved", "theorems": ["Ellecs.WorldSpec.C57_new", "Ellecs.WorldSpec.C57_view", "Ellecs.WorldSpec.C57_call", "Ellecs.WorldSpec.C57_talk", "Ellecs.WorldSpec.C57_program", "Ellecs.WorldSpec.C57_query_rows", "Ellecs.WorldSpec.C57_query_get", "Ellecs.WorldSpec.C57_dynamic_rows"], "note": "Simulation of the world of tables by a world of maps (Spec/Abstract); conversations of any length. Limits of memory exempt."},
 {"property": "C58", "status": "proved", "theorems": ["Ellecs.WorldSpec.C58_same_answers", "Ellecs.WorldSpec.C58_same_rows", "Ellecs.WorldSpec.C58_same_dynamic_rows"], "note": ""},
 {"property": "C59", "status": "proved", "theorems": ["Ellecs.WorldSpec.C59_commute", "Ellecs.WorldSpec.C59_add_remove", "Ellecs.WorldSpec.C59_write_write"], "note": "Types named by the calls must be registered: registering creates an entity, and the ids of new entities depend on the order."},
 {"property": "C60", "status": "proved", "theorems": ["Ellecs.WorldSpec.C60_tables_stay", "Ellecs.WorldSpec.C60_capacities", "Ellecs.WorldSpec.C60_locks_stay"], "note": "Every table, column and lock position is stable over all later worlds; blocks only grow by doubling."},
 {"property": "C61", "status": "proved", "theorems": ["Ellecs.WorldSpec.C61_covers", "Ellecs.WorldSpec.C61_calls", "Ellecs.WorldSpec.C61_drop", "Ellecs.WorldSpec.C61_static", "Ellecs.WorldSpec.C61_get", "Ellecs.WorldSpec.C61_dynamic", "Ellecs.WorldSpec.C61_columns", "Ellecs.WorldSpec.C61_exclusive", "Ellecs.WorldSpec.C61_static_access", "Ellecs.WorldSpec.C61_dynamic_access", "Ellecs.WorldSpec.C61_one_buffer"], "note": "All programs with leaks, live queries and rejected duplicates; the exceptions in the statement are known to break the world (C25_row_left_behind, C27_build_twice, C27_build_again) or are the limits of the model."},
 {"property": "C62", "status": "proved", "theorems": ["Ellecs.WorldSpec.C62_ordinary", "Ellecs.WorldSpec.C62_no_limit", "Ellecs.WorldSpec.C62_slots", "Ellecs.WorldSpec.C62_memory", "Ellecs.WorldSpec.C62_too_large", "Ellecs.WorldSpec.C62_safe", "Ellecs.WorldSpec.C62_safe_calls", "Ellecs.WorldSpec.C62_safe_drop", "Ellecs.WorldSpec.C62_covers"], "note": "Discharges the hypotheses of the other theorems (no Limit panic, no full slot) for programs with bounded component sizes and fewer than 2^32 despawns. C62_too_large shows that a bound on the size is needed."},
 {"property": "C63", "status": "proved", "theorems": ["Ellecs.WorldSpec.C63_static", "Ellecs.WorldSpec.C63_dynamic", "Ellecs.WorldSpec.C63_one_result", "Ellecs.WorldSpec.C63_static_each", "Ellecs.WorldSpec.C63_dynamic_each"], "note": "Dynamic queries must ask for existing entities or the world must be calm (the gap of C15)."},
 {"property": "C64", "status": "proved", "theorems": ["Ellecs.WorldSpec.C64_interleaved", "Ellecs.WorldSpec.C64_finish", "Ellecs.WorldSpec.C64_any_order", "Ellecs.WorldSpec.C64_commute"], "note": "A turn is one access; the bodies' own computations between accesses are functions."},
 {"property": "C65", "status": "proved", "theorems": ["Ellecs.WorldSpec.C65_sound", "Ellecs.WorldSpec.C65_new", "Ellecs.WorldSpec.C65_one_result", "Ellecs.WorldSpec.C65_every", "Ellecs.WorldSpec.C65_mono", "Ellecs.WorldSpec.C65_bind"], "note": "The logic asks for the postcondition under every order of the rows of a loop; a body does not panic."},
 {"property": "C66", "status": "proved", "theorems": ["Ellecs.WorldSpec.C66_needed", "Ellecs.WorldSpec.C66_panic", "Ellecs.WorldSpec.C66_covers", "Ellecs.WorldSpec.C66_count"], "note": "for every call that meets its contract, whether it returns or panics (allocation limits and the deadlock end the program)"},
 {"property": "C67", "status": "proved", "theorems": ["Ellecs.WorldSpec.C67_sound", "Ellecs.WorldSpec.C67_every", "Ellecs.WorldSpec.C67_mono", "Ellecs.WorldSpec.C67_bind", "Ellecs.WorldSpec.C67_forEachIn", "Ellecs.WorldSpec.C67_times"], "note": "static (typed) part of the interface; dynamic components and plugins are covered by C65"},
 {"property": "C68", "status": "proved", "theorems": ["Ellecs.WorldSpec.C68_iter", "Ellecs.WorldSpec.C68_insert", "Ellecs.WorldSpec.C68_add_remove", "Ellecs.WorldSpec.C68_get", "Ellecs.WorldSpec.C68_padded_get", "Ellecs.WorldSpec.C68_data", "Ellecs.WorldSpec.C68_frag_iter", "Ellecs.WorldSpec.C68_frag_iter_padding", "Ellecs.WorldSpec.C68_simple_iter", "Ellecs.WorldSpec.C68_large_iter", "Ellecs.WorldSpec.C68_inserts", "Ellecs.WorldSpec.C68_add_remove_benches", "Ellecs.WorldSpec.C68_playground", "Ellecs.WorldSpec.C68_padded_get_bench"], "note": "programs as scripts; f32 arithmetic is an arbitrary function on bytes"},
 {"property": "C69", "status": "proved", "theorems": ["Ellecs.WorldSpec.C69_sound", "Ellecs.WorldSpec.C69_every", "Ellecs.WorldSpec.C69_mono", "Ellecs.WorldSpec.C69_bind", "Ellecs.WorldSpec.C69_forEachIn", "Ellecs.WorldSpec.C69_times"], "note": "for programs that start with a new world"},
 {"property": "C70", "status": "proved", "theorems": ["Ellecs.WorldSpec.C70_iter", "Ellecs.WorldSpec.C70_data", "Ellecs.WorldSpec.C70_frag_iter", "Ellecs.WorldSpec.C70_frag_iter_padding", "Ellecs.WorldSpec.C70_simple_iter", "Ellecs.WorldSpec.C70_large_iter"], "note": "programs as sessions; f32 arithmetic is an arbitrary function on bytes"},
 {"property": "C71", "status": "partial", "theorems": ["Ellecs.VecSpec.C71_push_exact", "Ellecs.VecSpec.C71_capacity_partial", "Ellecs.VecSpec.C71_first_block_unchecked"], "note": "false for elements of isize::MAX/4 bytes or more (C71_first_block_unchecked)"},
 {"property": "C72", "status": "proved", "theorems": ["Ellecs.WorldSpec.C72_new", "Ellecs.WorldSpec.C72_calls", "Ellecs.WorldSpec.C72_panic", "Ellecs.WorldSpec.C72_panic_exact", "Ellecs.WorldSpec.C72_proper", "Ellecs.WorldSpec.C72_determined", "Ellecs.WorldSpec.C72_static_order", "Ellecs.WorldSpec.C72_dynamic_order", "Ellecs.WorldSpec.C72_stable", "Ellecs.WorldSpec.C72_leave"], "note": "lines of entities as spec; for all reachable worlds with fewer than 2^32 tables; for a panic, exactly which entities entered"},
 {"property": "C73", "status": "proved", "theorems": ["Ellecs.WorldSpec.C73_split", "Ellecs.WorldSpec.C73_one_by_one"], "note": "for all split points; success of the calls after build is a conclusion"},
 {"property": "C74", "status": "proved", "theorems": ["Ellecs.WorldSpec.C74_write_same", "Ellecs.WorldSpec.C74_remove_add", "Ellecs.WorldSpec.C74_write_remove", "Ellecs.WorldSpec.C74_then_despawn", "Ellecs.WorldSpec.C74_spawn_despawn"], "note": ""},
 {"property": "C75", "status": "proved", "theorems": ["Ellecs.WorldSpec.C75_call", "Ellecs.WorldSpec.C75_talk", "Ellecs.WorldSpec.C75_unique", "Ellecs.WorldSpec.C75_same", "Ellecs.WorldSpec.C75_world", "Ellecs.WorldSpec.C75_loop", "Ellecs.WorldSpec.C75_session"], "note": "Drop calls of panics beyond the size limits (C61) are not covered. Values a program overwrites through a pointer are its own business: the model hands the old value back."},
 {"property": "C76", "status": "proved", "theorems": ["Ellecs.WorldSpec.C76_learns", "Ellecs.WorldSpec.C76_keeps", "Ellecs.WorldSpec.C76_right", "Ellecs.WorldSpec.C76_follows", "Ellecs.WorldSpec.C76_recent", "Ellecs.WorldSpec.C76_array", "Ellecs.WorldSpec.C76_once"], "note": "C31 says that the cache does not change where entities go; this is what it is for"},
 {"property": "C77", "status": "proved", "theorems": ["Ellecs.WorldSpec.C77_talk", "Ellecs.WorldSpec.C77_order", "Ellecs.WorldSpec.C77_program", "Ellecs.WorldSpec.C77_askers", "Ellecs.WorldSpec.C77_rows", "Ellecs.WorldSpec.C77_rows_dynamic", "Ellecs.WorldSpec.C77_end"], "note": "two programs that differ in bytes, types of the same size, alignments, drop functions and capacities are treated alike: answers, maps, order, drop calls, rows"},
 {"property": "C78", "status": "partial", "theorems": ["Ellecs.ArraySpec.C78_once_partial", "Ellecs.ArraySpec.C78_inventory", "Ellecs.ArraySpec.C78_calls", "Ellecs.ArraySpec.C78_twice", "Ellecs.ArraySpec.C78_leak"], "note": "exactly once if no destructor unwinds; with unwinding destructors an exact inventory; violated by push_start (twice) and drop (leak)"},
 {"property": "C79", "status": "proved", "theorems": ["Ellecs.TextSpec.C79_digits", "Ellecs.TextSpec.C79_display_reads", "Ellecs.TextSpec.C79_distinct", "Ellecs.TextSpec.C79_parts"], "note": "for all ids; core::fmt is taken from its documentation"},
 {"property": "C80", "status": "proved", "theorems": ["Ellecs.WorldSpec.C80_rows", "Ellecs.WorldSpec.C80_loop", "Ellecs.WorldSpec.C80_one_result", "Ellecs.WorldSpec.C80_row_bodies"], "note": "Dynamic queries must ask for existing entities or the world must be calm (the gap of C15)."},
 {"property": "C81", "status": "partial", "theorems": ["Ellecs.VecSpec.C81_inventory", "Ellecs.VecSpec.C81_once_partial", "Ellecs.VecSpec.C81_end_partial", "Ellecs.VecSpec.C81_never_twice_partial", "Ellecs.VecSpec.C81_unwind", "Ellecs.VecSpec.C81_values_partial", "Ellecs.VecSpec.C81_function", "Ellecs.VecSpec.C81_wrong_function", "Ellecs.VecSpec.C81_leak", "Ellecs.VecSpec.C81_ghost"], "note": "False for zero sized types (C81_leak, C81_ghost) and for types with equal layouts and different drop functions (C81_wrong_function). Proved: the books balance for every size with only zero sized values lost or made up (inventory); exactly once for types of a size with distinct layouts, at any time and at the end; with mixed types each value is still dropped exactly once, if perhaps by the wrong function; a drop function is only called on whole values of the size of its type. All of this with drop functions that panic: values left behind by a drop that unwinds are accounted for, and which they are is C81_unwind."},
 {"property": "C82", "status": "proved", "theorems": ["Ellecs.WorldSpec.C82_despawn_confined", "Ellecs.WorldSpec.C82_remove_dynamic_confined", "Ellecs.WorldSpec.C82_remove_confined", "Ellecs.WorldSpec.C82_despawn_stuck", "Ellecs.WorldSpec.C82_despawn_mixed", "Ellecs.WorldSpec.C82_remove_shifted"], "note": "For every reachable world and every choice of panicking destructors. The two entities that are harmed are described exactly."},
 {"property": "C83", "status": "proved", "theorems": ["Ellecs.WorldSpec.C83_despawn", "Ellecs.WorldSpec.C83_conserved", "Ellecs.WorldSpec.C83_drop", "Ellecs.WorldSpec.C83_query_fault", "Ellecs.WorldSpec.C83_static", "Ellecs.WorldSpec.C83_get", "Ellecs.WorldSpec.C83_dynamic", "Ellecs.WorldSpec.C83_columns", "Ellecs.WorldSpec.C83_component_ptr", "Ellecs.WorldSpec.C83_spawn_unsound"], "note": "For every safe history followed by any sequence of queries, writes and despawns with any panicking destructors. The boundary is proved too: a spawn in the torn world can lead to undefined behaviour (C83_spawn_unsound)."},
 {"property": "C84", "status": "proved", "theorems": ["Ellecs.WorldSpec.C84_slots", "Ellecs.WorldSpec.C84_peak", "Ellecs.WorldSpec.C84_free", "Ellecs.WorldSpec.C84_census", "Ellecs.WorldSpec.C84_memory", "Ellecs.WorldSpec.C84_steady"], "note": "Slots = peak of live ids, for every history."},
 {"property": "C85", "status": "proved", "theorems": ["Ellecs.WorldSpec.C85_arises", "Ellecs.WorldSpec.C85_forever", "Ellecs.WorldSpec.C85_despawn", "Ellecs.WorldSpec.C85_components", "Ellecs.WorldSpec.C85_leak"], "note": "For every reachable world and all later histories."},
 {"property": "C86", "status": "proved", "theorems": ["Ellecs.WorldSpec.C86_revived", "Ellecs.WorldSpec.C86_unsound", "Ellecs.WorldSpec.C86_before"], "note": "Safe programs of 2^33 calls; the bound of C48 is needed"},
 {"property": "C87", "status": "proved", "theorems": ["Ellecs.WorldSpec.C87_safe", "Ellecs.WorldSpec.C87_calls", "Ellecs.WorldSpec.C87_drop", "Ellecs.WorldSpec.C87_types", "Ellecs.WorldSpec.C87_beyond"], "note": "Lasting programs are Safe (C61)"},
 {"property": "C88", "status": "proved", "theorems": ["Ellecs.WorldSpec.C88_lasting", "Ellecs.WorldSpec.C88_view", "Ellecs.WorldSpec.C88_call", "Ellecs.WorldSpec.C88_talk", "Ellecs.WorldSpec.C88_program", "Ellecs.WorldSpec.C88_query_rows", "Ellecs.WorldSpec.C88_query_get", "Ellecs.WorldSpec.C88_dynamic_rows", "Ellecs.WorldSpec.C88_again"], "note": "for programs that despawn no type; dynamic queries for components that were never built are exempt as in C57 (C26)"},
 {"property": "C89", "status": "proved", "theorems": ["Ellecs.WorldSpec.C89_covers", "Ellecs.WorldSpec.C89_born", "Ellecs.WorldSpec.C89_stays", "Ellecs.WorldSpec.C89_again", "Ellecs.WorldSpec.C89_reborn", "Ellecs.WorldSpec.C89_dead", "Ellecs.WorldSpec.C89_types", "Ellecs.WorldSpec.C89_program", "Ellecs.WorldSpec.C89_sharp"], "note": "Follows ids through conversations with a world: FreeTalk covers the conversations of C57 and C88. The bound 2^33 - 1 is attained (C89_sharp)."},
 {"property": "C90", "status": "proved", "theorems": ["Ellecs.WorldSpec.C90_latest", "Ellecs.WorldSpec.C90_look", "Ellecs.WorldSpec.C90_untouched", "Ellecs.WorldSpec.C90_metadata"], "note": "Read-over-write for whole conversations (FreeTalk, which covers C57 and C88). The values an entity starts with are C06."},
 {"property": "C91", "status": "proved", "theorems": ["Ellecs.WorldSpec.C91_told", "Ellecs.WorldSpec.C91_start", "Ellecs.WorldSpec.C91_seen", "Ellecs.WorldSpec.C91_types", "Ellecs.WorldSpec.C91_rows", "Ellecs.WorldSpec.C91_get"], "note": "The specification of the typed interface as a fold over the conversation. Covers entities from their birth on, which C90 does not; C90 covers dynamic components and writes. C91_rows needs fewer than 2^32 tables (the counter of the code)."},
 {"property": "C92", "status": "proved", "theorems": ["Ellecs.WorldSpec.C92_course", "Ellecs.WorldSpec.C92_there", "Ellecs.WorldSpec.C92_fresh", "Ellecs.WorldSpec.C92_program", "Ellecs.WorldSpec.C92_seen", "Ellecs.WorldSpec.C92_kept", "Ellecs.WorldSpec.C92_life", "Ellecs.WorldSpec.C92_rows"], "note": "Extends C90 over births and deaths of the entity, and C91 to dynamic components and dynamic queries. Entities that are types are left to C90; C92_rows says nothing about the rows of such entities."}
]}
