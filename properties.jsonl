{"id": "C01", "title": "Spawned ids are unique", "statement": "Every EcsId handed out by the id allocator differs from every EcsId it handed out earlier, as long as no slot has been recycled 2^32 times; that bound is exact: after 2^32 despawn/spawn cycles of one slot the allocator hands out an id it already handed out, and the old handle is alive again.", "quantifier": "every sequence of spawn and despawn calls, with any arguments and of any length", "why_tests_cant": "Uniqueness ranges over whole histories; the wrap-around case needs 2^32 operations and cannot be executed in a test.", "anchors": ["arche_tape/src/entities.rs: Entities::spawn, Entities::despawn", "arche_tape/src/world.rs: World::spawn, World::despawn"]}
{"id": "C02", "title": "Liveness is exact", "statement": "is_alive(id) is true exactly when id was handed out by spawn and has not been despawned since (no slot recycled 2^32 times).", "quantifier": "every history of spawn/despawn and every id handed out in it", "why_tests_cant": "Stale handles interact with slot reuse in every possible order.", "anchors": ["arche_tape/src/entities.rs: Entities::is_alive, Entities::spawn, Entities::despawn"]}
{"id": "C03", "title": "despawn kills exactly one entity, once", "statement": "despawn(id) on the allocator returns true iff id was alive; afterwards id is dead, a second despawn returns false and changes nothing, and the liveness of every other id is unchanged.", "quantifier": "every reachable allocator state, every pair of ids", "why_tests_cant": "Needs all states and all other ids.", "anchors": ["arche_tape/src/entities.rs: Entities::despawn"]}
{"id": "C04", "title": "Slots are recycled, never leaked or shared", "statement": "A spawn after a despawn reuses the most recently freed slot with the next generation; a new slot is created only when no slot is free; a live slot is never handed out again; the internal assertion in spawn never fires.", "quantifier": "every history of spawn/despawn", "why_tests_cant": "Inductive invariant of the free list.", "anchors": ["arche_tape/src/entities.rs: Entities::spawn, Entities::despawned"]}
{"id": "C05", "title": "Identity of ids is coherent", "statement": "Equality, hashing key (as_u64) and ordering of EcsId agree: two ids are equal iff index and generation agree iff their u64 keys agree, and the derived order is a total order that is the order of the u64 keys.", "quantifier": "all 2^64 x 2^64 pairs of ids", "why_tests_cant": "The domain is far too large to enumerate.", "anchors": ["arche_tape/src/entities.rs: EcsId, EcsId::as_u64, PartialEq for EcsId, derive(Ord)"]}
{"id": "C06", "title": "Building an entity gives it exactly its components", "statement": "spawn().with(..)...build() with distinct components returns a fresh live id whose components are exactly those supplied, each with exactly the supplied bytes; every other entity and component is untouched.", "quantifier": "every reachable world, every list of distinct components (typed or dynamic, zero sized or not), every value", "why_tests_cant": "Depends on which archetypes already exist, on the buffer offsets of all components and on sorting.", "anchors": ["arche_tape/src/entity_builder.rs: EntityBuilder::build, create_archetype, with, with_dynamic_with_data", "arche_tape/src/world.rs: find_archetype_dynamic"]}
{"id": "C07", "title": "add_component adds exactly one component", "statement": "After add_component(e, v) entity e has T = v, all other components of e keep their values, and every other entity keeps all its components and values; liveness is unchanged except for the component's own entity if T is new.", "quantifier": "every reachable world, every live entity without T, every value", "why_tests_cant": "The row is moved between tables by swapping with the last row; any entity of the old table can be relocated.", "anchors": ["arche_tape/src/world.rs: add_component, add_component_dynamic, add_component_dynamic_with_data"]}
{"id": "C08", "title": "remove_component removes exactly one component", "statement": "After remove_component::<T>(e) entity e no longer has T, keeps the values of all its other components, every other entity is untouched, and exactly the removed value is destroyed.", "quantifier": "every reachable world, every live entity that has T", "why_tests_cant": "As for C07.", "anchors": ["arche_tape/src/world.rs: remove_component, remove_component_dynamic"]}
{"id": "C09", "title": "despawn removes exactly one entity", "statement": "World::despawn(e) of a live entity that is not used as a component returns true, makes e dead, destroys exactly its component values and leaves every other entity's components and values unchanged.", "quantifier": "every reachable world and entity", "why_tests_cant": "Swap-remove relocates another row and its metadata.", "anchors": ["arche_tape/src/world.rs: World::despawn, Archetype::despawn"]}
{"id": "C10", "title": "Component ids of types are stable and distinct", "statement": "get_or_create_type_id_ecsid::<T>() returns the same id for T for the life of the world, different ids for different types, and the id's layout and drop function are those of T (while the id is not despawned).", "quantifier": "every reachable world, all pairs of types", "why_tests_cant": "Quantifies over all later histories.", "anchors": ["arche_tape/src/world.rs: get_or_create_type_id_ecsid"]}
{"id": "C11", "title": "has_component is exact", "statement": "has_component::<T>(e) is true iff e is alive, was built, and currently has T; it never changes the world.", "quantifier": "every reachable world, type and id with an in-range slot", "why_tests_cant": "All histories of adds, removes and moves.", "anchors": ["arche_tape/src/world.rs: has_component"]}
{"id": "C12", "title": "get_component_mut_dynamic points at the right cell", "statement": "For a live entity having component c it returns a pointer to exactly that entity's c value; for a dead entity or dead c it returns None; for an entity that lacks c the signature promises None.", "quantifier": "every reachable world, entity and component id", "why_tests_cant": "The third clause is violated: the call panics; the first two need all states.", "anchors": ["arche_tape/src/world.rs: get_component_mut_dynamic", "untyped_vec/src/lib.rs: get_mut_raw"]}
{"id": "C13", "title": "StaticQuery::get is exact", "statement": "query.get(e) returns Some iff e is alive, built and has every requested component, and then each returned reference denotes that entity's value of that component (and EcsIds returns e).", "quantifier": "every reachable world, every tuple of parameters, every id with an in-range slot", "why_tests_cant": "All states and tuples.", "anchors": ["arche_tape/src/static_query.rs: StaticQuery::get, QueryParam"]}
{"id": "C14", "title": "StaticQuery::iter visits every matching entity exactly once", "statement": "Iterating a static query yields exactly one row for each live built entity that has all requested components, no other row, with references to that entity's own values, and terminates (fewer than 2^32 archetypes).", "quantifier": "every reachable world and every tuple of parameters", "why_tests_cant": "Any number of archetypes, rows and words of bits.", "anchors": ["arche_tape/src/static_query.rs: StaticQuery::iter, StaticQueryIter::next, IntraArchetypeIter", "arche_tape/src/world.rs: ArchetypeIter"]}
{"id": "C15", "title": "DynQuery::iter visits every matching entity exactly once", "statement": "The same as C14 for query_dynamic([..]).iter() with component ids instead of types.", "quantifier": "every reachable world and every array of fetches", "why_tests_cant": "As C14.", "anchors": ["arche_tape/src/dyn_query.rs: DynQuery::iter, DynQueryIter::next"]}
{"id": "C16", "title": "DynQuery::column_iter yields every matching table once", "statement": "column_iter yields one item per component combination that contains all requested components, with the length equal to the number of entities in it, and the columns of all items together hold exactly the rows of iter.", "quantifier": "every reachable world and every array of fetches", "why_tests_cant": "As C14.", "anchors": ["arche_tape/src/dyn_query.rs: DynQuery::column_iter, DynQueryColumnIter::next"]}
{"id": "C17", "title": "Static and dynamic queries agree", "statement": "query::<(..)>().iter() and query_dynamic with the ids of the same types yield the same pointers in the same order.", "quantifier": "every reachable world and parameter tuple", "why_tests_cant": "Relates two independently written iterators.", "anchors": ["arche_tape/src/static_query.rs: StaticQuery::iter", "arche_tape/src/dyn_query.rs: DynQuery::iter"]}
{"id": "C18", "title": "Querying an absent component yields nothing and does not panic", "statement": "A query that mentions a component no entity ever had yields no rows and does not panic.", "quantifier": "every reachable world and query", "why_tests_cant": "Violated by static queries of a type that has an id but was never put on an entity; proved for all other cases.", "anchors": ["arche_tape/src/static_query.rs: StaticQuery::new (world.lock_lookup[id])", "arche_tape/src/dyn_query.rs: DynQuery::new (incomplete)"]}
{"id": "C19", "title": "Writing through a reference changes only that cell", "statement": "Storing a value through a &mut T obtained from a query (or the pointer from get_component_mut_dynamic) changes exactly that component of that entity; everything else reads as before.", "quantifier": "every reachable world, every cell, every value", "why_tests_cant": "Frame property over all other cells.", "anchors": ["arche_tape/src/static_query.rs: cast_ptr", "arche_tape/src/world.rs: get_component_mut_dynamic"]}
{"id": "C20", "title": "References from one iteration never overlap", "statement": "Two different rows produced by one iteration refer to disjoint byte ranges for every requested non zero sized component, and two different columns never overlap.", "quantifier": "every reachable world, every query, every pair of rows", "why_tests_cant": "All pairs of rows.", "anchors": ["arche_tape/src/static_query.rs: offset_ptr", "arche_tape/src/dyn_query.rs: IntraArchetypeIter::next"]}
{"id": "C21", "title": "Simultaneously live queries never alias mutably", "statement": "However queries are created and dropped, while a query holds &mut access to a component that some entity has, no other live query, and no other position of the same query, holds any access to that component. (A dynamic query takes no lock for a component that was never on an entity; then there is no value to alias.)", "quantifier": "every interleaving of query creations and drops, any number of queries", "why_tests_cant": "All interleavings.", "anchors": ["arche_tape/src/static_query.rs: StaticQuery::new (guards)", "arche_tape/src/dyn_query.rs: DynQuery::new (guards)"]}
{"id": "C22", "title": "Locks are released and never leak", "statement": "Dropping a query returns the locks to the state before it was created; creating a query that conflicts with no live query never blocks; a query asking for the same component mutably and again can never be created (for a dynamic query: if the component has ever been on an entity, otherwise it takes no lock and yields nothing).", "quantifier": "every lock state and query", "why_tests_cant": "All interleavings.", "anchors": ["arche_tape/src/static_query.rs: StaticQuery::new", "arche_tape/src/dyn_query.rs: DynQuery::new", "arche_tape/src/lib.rs: EitherGuard"]}
{"id": "C23", "title": "A panic while iterating mutably poisons the component", "statement": "If a thread panics while holding a query with &mut access to a component, every later query of that component panics, and queries of other components are unaffected.", "quantifier": "every world and query", "why_tests_cant": "Effect persists over all later histories.", "anchors": ["arche_tape/src/static_query.rs: .write().unwrap()", "arche_tape/src/dyn_query.rs: .write().unwrap()"]}
{"id": "C24", "title": "Order of with() calls does not matter", "statement": "Building with the same distinct components in any order yields an entity with the same components and values.", "quantifier": "every reachable world, every permutation of every component list", "why_tests_cant": "All permutations.", "anchors": ["arche_tape/src/entity_builder.rs: build, create_archetype (sort)"]}
{"id": "C25", "title": "Duplicate components are rejected", "statement": "build() with the same component supplied twice always panics; it never produces an entity.", "quantifier": "every reachable world, every component list with a duplicate", "why_tests_cant": "Depends on which archetypes exist: two different assertions are needed.", "anchors": ["arche_tape/src/entity_builder.rs: build (assert len == entities.len), create_archetype (assert insert is_none)"]}
{"id": "C26", "title": "A rejected call leaves the world intact", "statement": "When an API call panics because of caller misuse (dead or foreign id, component already present or absent, size mismatch), the world is left consistent and all entities keep their components.", "quantifier": "every reachable world and every misuse", "why_tests_cant": "Violated by build() with a duplicated component; proved for the other calls.", "anchors": ["arche_tape/src/world.rs: assertions in add/remove/despawn", "arche_tape/src/entity_builder.rs: build"]}
{"id": "C27", "title": "A builder builds one entity", "statement": "Calling build() more than once on a builder does not duplicate the entity or its data.", "quantifier": "every reachable world and builder", "why_tests_cant": "Violated: build takes &mut self and pushes a second row; needs a proof that once is always fine.", "anchors": ["arche_tape/src/entity_builder.rs: build"]}
{"id": "C28", "title": "Dropping a builder without building has no visible effect", "statement": "If a builder is dropped without build(), no new row appears in any query, every existing entity is unchanged, and the supplied values are leaked, not dropped.", "quantifier": "every reachable world and builder script without build", "why_tests_cant": "All histories.", "anchors": ["arche_tape/src/entity_builder.rs: Drop for EntityBuilder, with"]}
{"id": "C29", "title": "Builder buffer reuse and capacity are unobservable", "statement": "spawn, spawn_with_capacity(n) for any n, with or without a recycled buffer from an earlier builder, produce the same entity and the same world as seen by queries; old buffer contents never reach an entity.", "quantifier": "every reachable world, capacity and component list", "why_tests_cant": "All previous builder histories.", "anchors": ["arche_tape/src/entity_builder.rs: new, with_capacity, new_from_world_cache, Drop"]}
{"id": "C30", "title": "One table per component combination", "statement": "No two tables hold the same set of components, and the first table is the one for entities without components (among the first 2^32 tables; table numbers are 32 bits wide).", "quantifier": "every reachable world", "why_tests_cant": "Created from three different places (build, add, remove).", "anchors": ["arche_tape/src/world.rs: find_archetype_dynamic, find_archetype_dynamic_plus_id, find_archetype_dynamic_minus_id", "arche_tape/src/entity_builder.rs: build"]}
{"id": "C31", "title": "The add/remove edge cache is transparent", "statement": "The table an entity moves to on add/remove is the one for its component set plus/minus that component, whatever the history of the per-table cache.", "quantifier": "every reachable world, entity and component", "why_tests_cant": "All cache histories including eviction.", "anchors": ["arche_tape/src/world.rs: AddRemoveCache::lookup_id, insert_id, try_find_next_archetype", "arche_tape/src/array_vec.rs: push_start"]}
{"id": "C32", "title": "add then remove is the identity", "statement": "Adding a component to an entity and removing it again restores all components and values of all entities (and destroys exactly the added value).", "quantifier": "every reachable world, entity, component, value", "why_tests_cant": "All states.", "anchors": ["arche_tape/src/world.rs: add_component_dynamic_with_data, remove_component_dynamic"]}
{"id": "C33", "title": "Adding different components commutes", "statement": "Adding A then B or B then A leaves every entity with the same components and values.", "quantifier": "every reachable world, entity, pair of components and values", "why_tests_cant": "All states.", "anchors": ["arche_tape/src/world.rs: add_component_dynamic_with_data"]}
{"id": "C34", "title": "Every component value is dropped exactly once", "statement": "For components of non-zero size: every value handed to the world by a built entity or add_component is dropped exactly once over the life of the world (by remove, despawn or dropping the world), never twice, never leaked.", "quantifier": "every history of API calls followed by dropping the world", "why_tests_cant": "Counts over complete histories.", "anchors": ["untyped_vec/src/lib.rs: swap_remove, swap_move_element_to_other_vec, pop, Drop", "arche_tape/src/world.rs: remove_component_dynamic, Archetype::despawn"]}
{"id": "C35", "title": "Zero sized components are dropped exactly once", "statement": "The same as C34 for zero sized components with a Drop impl.", "quantifier": "every history of API calls followed by dropping the world", "why_tests_cant": "Violated: dropping the world never runs their drop; removal and despawn do.", "anchors": ["untyped_vec/src/lib.rs: Drop for UntypedVec (cap > 0), pop"]}
{"id": "C36", "title": "add_component always takes effect", "statement": "add_component::<T>(e, v) on a live entity either panics or e has T = v afterwards.", "quantifier": "every history", "why_tests_cant": "Violated after the component entity of T (visible through EcsIds queries) is despawned: the value is silently leaked; proved while it is alive.", "anchors": ["arche_tape/src/world.rs: add_component, add_component_dynamic_with_data (early return), despawn"]}
{"id": "C37", "title": "Despawning an entity used as a component removes it everywhere", "statement": "World::despawn documents that an entity used as a component is removed from all entities.", "quantifier": "every reachable world", "why_tests_cant": "Violated: the call panics whenever any table (even an empty one) mentions it; proved: it never silently leaves dangling components.", "anchors": ["arche_tape/src/world.rs: World::despawn (todo!)"]}
{"id": "C38", "title": "UntypedVec behaves like a list of values", "statement": "push appends, pop removes the last, swap_remove(i) replaces i by the last, swap_move moves element i to the end of the other vec, get(i) points at element i; realloc only makes room (and panics for size zero); for every element size including zero.", "quantifier": "every sequence of operations and every layout", "why_tests_cant": "All sizes, lengths and reallocation points.", "anchors": ["untyped_vec/src/lib.rs: push_raw, pop, swap_remove, swap_move_element_to_other_vec, get_raw, len, realloc"]}
{"id": "C39", "title": "UntypedVec stays inside its allocation", "statement": "No operation reads or writes outside the allocated block or reads an element that was not pushed, the byte length is a multiple of the element size and at most the capacity, and the block is freed with the layout it was allocated with.", "quantifier": "every sequence of operations and every layout", "why_tests_cant": "All sizes and reallocation points.", "anchors": ["untyped_vec/src/lib.rs: push_raw, realloc, Drop"]}
{"id": "C40", "title": "pop on an empty UntypedVec returns false and drops nothing", "statement": "pop() on an empty vec returns false and calls no drop function.", "quantifier": "every layout", "why_tests_cant": "Violated for zero sized types: it returns true and runs the drop function on a value that does not exist; proved for non-zero sizes.", "anchors": ["untyped_vec/src/lib.rs: pop"]}
{"id": "C41", "title": "as_slice exposes exactly the elements", "statement": "as_slice::<T>() returns the slice of all elements for the type the vec was created with.", "quantifier": "every vec and layout", "why_tests_cant": "Violated for zero sized types: it always panics (remainder by zero); proved for non-zero sizes.", "anchors": ["untyped_vec/src/lib.rs: as_slice, as_slice_mut"]}
{"id": "C42", "title": "Element pointers are aligned", "statement": "Every pointer handed out for an element is a multiple of the component's alignment.", "quantifier": "every layout, element and allocator", "why_tests_cant": "Violated for zero sized types with alignment above one and for layouts whose size is not a multiple of the alignment; proved otherwise.", "anchors": ["untyped_vec/src/lib.rs: get_raw, NonNull::dangling", "arche_tape/src/world.rs: ComponentMeta::from_size_align"]}
{"id": "C43", "title": "The bitset iterator yields exactly the common bits", "statement": "BitsetIterator over any bit vectors and maps yields, in increasing order and exactly once, the positions below bit_length at which every mapped vector has a one.", "quantifier": "all word lists, maps and lengths", "why_tests_cant": "Unbounded words and iterators.", "anchors": ["arche_tape/src/bitset_iterator.rs: BitsetIterator::next"]}
{"id": "C44", "title": "Iterators stay finished", "statement": "Once an archetype/bitset/query iterator has returned None it returns None forever.", "quantifier": "every iterator state that returned None", "why_tests_cant": "All iterator states.", "anchors": ["arche_tape/src/bitset_iterator.rs: BitsetIterator::next", "arche_tape/src/static_query.rs: StaticQueryIter::next", "arche_tape/src/dyn_query.rs: DynQueryIter::next"]}
{"id": "C45", "title": "Bit vectors behave like maps from positions to bits", "statement": "set_bit(i,v) makes get_bit(i) = v, changes no other position, extends the length to cover i with zeros, and push_bit appends.", "quantifier": "all vectors and positions", "why_tests_cant": "Word boundaries at any position.", "anchors": ["arche_tape/src/bitset_iterator.rs: Bitvec::set_bit, get_bit, push_bit, Bitsetsss::set_bit, get_bitvec"]}
{"id": "C46", "title": "The edge cache array is a bounded most-recent-first list", "statement": "push_start puts the element first, keeps the order of the others and evicts only the last when full; push appends unless full; pop returns the last element.", "quantifier": "every sequence of operations and capacity", "why_tests_cant": "pop is violated: it reads one past the last element; the rest is inductive.", "anchors": ["arche_tape/src/array_vec.rs: ArrayVec::push_start, push, pop, get, as_slice"]}
{"id": "C47", "title": "index_twice_mut returns the two requested elements", "statement": "For two different in-range indices it returns the element at the first and the element at the second, in this order.", "quantifier": "all slices and index pairs", "why_tests_cant": "All pairs.", "anchors": ["arche_tape/src/lib.rs: utils::index_twice_mut"]}
{"id": "C48", "title": "Safe calls never touch memory out of bounds", "statement": "Starting from an empty world, no sequence of well-typed API calls (each builder built at most once, no call panicking, no slot recycled 2^32 times) performs an out-of-bounds, uninitialised or wrongly typed memory access.", "quantifier": "every history of API calls and queries", "why_tests_cant": "Undefined behaviour is not observable by assertions and depends on the whole history.", "anchors": ["arche_tape/src/world.rs: all unsafe blocks", "arche_tape/src/entity_builder.rs: build", "arche_tape/src/static_query.rs: cast_ptr", "untyped_vec/src/lib.rs: all unsafe blocks"]}
{"id": "C49", "title": "Dead ids are inert", "statement": "With a dead entity id, despawn returns false, get_entity_meta and query.get and get_component_mut_dynamic return None, has_component returns false and the dynamic add/remove calls change nothing; the typed add/remove calls panic.", "quantifier": "every reachable world and dead in-range id", "why_tests_cant": "All histories of slot reuse.", "anchors": ["arche_tape/src/world.rs: despawn, get_entity_meta, add_component_dynamic_with_data, remove_component_dynamic", "arche_tape/src/static_query.rs: get"]}
{"id": "C50", "title": "Foreign ids are rejected without side effects", "statement": "An id whose slot this world never created makes is_alive (and everything that consults it) panic, and the world is unchanged.", "quantifier": "every reachable world and out-of-range id", "why_tests_cant": "All ids.", "anchors": ["arche_tape/src/entities.rs: is_alive"]}
{"id": "C51", "title": "Spawning and despawning components keeps the population", "statement": "The entities visible through query::<(EcsIds,)> are exactly those built and not despawned, including the component entities of types.", "quantifier": "every history", "why_tests_cant": "All histories.", "anchors": ["arche_tape/src/world.rs: entities_bitvec", "arche_tape/src/static_query.rs: EcsIds"]}
{"id": "C52", "title": "Storage growth is geometric", "statement": "A column that never exceeded n elements (nor, when realloc was called from outside, had room for more than n) has capacity for at most max(4, 2n) elements, and capacity is always 0 or size*4*2^k.", "quantifier": "every sequence of pushes, pops, moves and calls of realloc", "why_tests_cant": "All sequences.", "anchors": ["untyped_vec/src/lib.rs: realloc, push_raw"]}
{"id": "C53", "title": "A panicking component destructor leaves the world consistent", "statement": "When the destructor of a component unwinds inside despawn, remove_component(_dynamic) or the drop of the World, no value is dropped twice, no value other than those behind it in the same column is lost, and the World that the caller may still use after catching the panic is in a state from which safe calls are well defined.", "quantifier": "for all reachable worlds, all entities and components, and every choice of which drop calls unwind", "why_tests_cant": "Tests use components whose destructors do not panic; the broken state only exists after a catch_unwind and depends on which of the columns, entity list and metadata had been updated when the destructor ran.", "anchors": ["untyped_vec/src/lib.rs:200-224", "untyped_vec/src/lib.rs:275-304", "untyped_vec/src/lib.rs:363-377", "arche_tape/src/world.rs:173-199", "arche_tape/src/world.rs:339-357", "arche_tape/src/world.rs:798-849"]}
{"id": "C54", "title": "Hashing of ids agrees with equality and never panics", "statement": "Hashing an EcsId (or a TypeId) with TypeIdHasher never panics, two ids have the same hash iff they are equal, the hash does not depend on what was hashed before, and the hasher rejects anything that is not 8 bytes.", "quantifier": "all ids, all byte strings, all hasher states", "why_tests_cant": "2^64 ids; collisions are not found by sampling.", "anchors": ["arche_tape/src/lib.rs: utils::TypeIdHasher, TypeIdHasherBuilder", "arche_tape/src/entities.rs: Hash for EcsId"]}
{"id": "C55", "title": "Component metadata is what was asked for and never changes", "statement": "ComponentMeta::from_size_align accepts exactly the valid layouts and yields that size and alignment; a built entity has, as a component, the metadata it was spawned with (unit if none) as long as it is alive; all columns of a component have its layout and drop function, and all its values its size.", "quantifier": "all sizes and alignments; every reachable world, all later histories", "why_tests_cant": "Quantifies over all later histories and all usize pairs.", "anchors": ["arche_tape/src/world.rs: ComponentMeta, EntityMeta, spawn_with_component_meta", "arche_tape/src/entity_builder.rs: EntityBuilder::build"]}
{"id": "C56", "title": "References to components are aligned", "statement": "Every reference or pointer a query or get_component_mut_dynamic hands out is aligned for its type, whatever addresses the allocator returned.", "quantifier": "every reachable world, all queries, all allocator results", "why_tests_cant": "Depends on the addresses the allocator returns; misaligned references usually appear to work.", "anchors": ["arche_tape/src/static_query.rs", "arche_tape/src/dyn_query.rs", "arche_tape/src/world.rs: get_component_mut_dynamic", "untyped_vec/src/lib.rs: UntypedVec::new_from_raw, realloc"]}
{"id": "C57", "title": "The world cannot be told apart from plain maps", "statement": "There is a world of plain maps (entity to metadata, entity and component to value, ...) without tables, rows, columns, caches or bitsets such that every call on a World returns the same value, or panics for the same reason, as the corresponding update of the maps, and what is_alive, has_component, get_component_mut_dynamic and queries show afterwards is what the maps say; only panics caused by the limits of memory, and dynamic queries for components that were never built after an earlier panic (C26), are exempt.", "quantifier": "all programs of any length starting with a new world, including those that carry on after panics", "why_tests_cant": "A refinement claim over all call sequences; tests compare a few of them.", "anchors": ["arche_tape/src/world.rs: World", "arche_tape/src/entity_builder.rs: EntityBuilder", "arche_tape/src/static_query.rs", "arche_tape/src/dyn_query.rs", "arche_tape/src/archetype_iter.rs"]}
{"id": "C58", "title": "Worlds that show the same behave the same", "statement": "Two worlds with the same entities, components, values, registered types and locks answer every further sequence of calls alike, whatever their tables look like and however they were reached, and show the same afterwards; the rows of their queries are the same up to their order.", "quantifier": "all pairs of reachable worlds, all further programs", "why_tests_cant": "Quantifies over pairs of histories and all continuations.", "anchors": ["arche_tape/src/world.rs: World"]}
{"id": "C59", "title": "Calls about different entities commute", "statement": "Calls that add, remove or write components of different entities can be made in either order with the same results (including panics) and the same visible state; adding a component and removing it again changes nothing that can be seen if the component was in use before; of two writes in a row the second counts.", "quantifier": "every reachable world, all pairs of such calls", "why_tests_cant": "All pairs of calls in all worlds; table moves make the internal states differ.", "anchors": ["arche_tape/src/world.rs: add_component*, remove_component*, get_component_mut_dynamic"]}
{"id": "C60", "title": "Tables, columns and locks are never removed or renumbered", "statement": "At any later time every table is at the same position with the same components, its columns at the same slots with the same layout and drop function. A column's block only grows, by doubling, and is replaced only when it grows; a capacity is 0 or 4 elements doubled some number of times. A component keeps its lock.", "quantifier": "every reachable world, every later world after any calls (also panicking ones)", "why_tests_cant": "Cached table positions, bitset positions and lock positions rely on it over whole histories.", "anchors": ["arche_tape/src/world.rs: World::archetypes, lock_lookup, AddRemoveCache", "arche_tape/src/bitset_iterator.rs: Bitsetsss", "untyped_vec/src/lib.rs:80-113"]}
{"id": "C61", "title": "Leaking queries and builders is safe", "statement": "Whatever a program leaks (mem::forget of queries, guards or builders), in whatever order queries are dropped, and whichever panics it catches (also a duplicate component that build rejects before adding a row): no call touches memory it may not touch; iterators, at any point, only panic or yield references that may be used; live guards never conflict, and a new query holds guards for everything it accesses that conflict with no live or leaked one; no two builders share a buffer; the world can be dropped. Excepted are programs that build a builder twice, that supply a component twice when some table fits, that go on after an allocation limit panic, or that despawn the id of a type and recycle its slot 2^32 times.", "quantifier": "every history of calls, live and leaked queries and builders with those exceptions; every state of every iterator; any number of tables", "why_tests_cant": "Leaks leave locks taken and the buffer gone for all later calls; whether later code then reads freed or foreign memory depends on the whole history.", "anchors": ["arche_tape/src/world.rs: query, query_dynamic, entity_builder_reuse", "arche_tape/src/entity_builder.rs: Drop, build", "arche_tape/src/static_query.rs", "arche_tape/src/dyn_query.rs"]}
{"id": "C62", "title": "Ordinary programs stay inside the limits", "statement": "A program whose component types have less than 2^29 bytes (or, with s bytes and n slots, 4*s*n below isize::MAX) and that calls despawn less than 2^32 times never makes a call panic because of an allocation limit and never has a slot used up, whatever other panics it causes and catches; so every theorem about reachable worlds applies to it. The same holds for programs that leak queries and builders (C61): their calls neither touch memory they may not touch nor meet a limit, and their world can be dropped. A column's block holds at most four values, or twice as many as there ever were slots.", "quantifier": "every program (any number of calls, values and caught panics) within these sizes; every state it gets into", "why_tests_cant": "The limits are reached only with exabytes of data or billions of calls.", "anchors": ["untyped_vec/src/lib.rs:80-109", "arche_tape/src/entities.rs: spawn, despawn", "arche_tape/src/world.rs", "arche_tape/src/entity_builder.rs: with_capacity"]}
{"id": "C63", "title": "Loops over queries", "statement": "A loop `for row in query.iter()` whose body looks at everything a row shows, remembers what it likes, and stores new values through the mutable references of the row: it ends and is never a fault; the body runs exactly once for each entity that has all requested components, and is shown the values that entity had when the loop began; afterwards the stored components of these entities have the stored values and nothing else has changed. Without memory the order of the rows does not matter. Dropping the query restores the locks; other live queries stay live.", "quantifier": "every reachable world (fewer than 2^32 tables), every set of other live queries, every non-empty static or dynamic query, every body with any memory", "why_tests_cant": "Tests run a handful of bodies over a handful of entities; whether stores of one row can show up in another row or table is a statement about all of them.", "anchors": ["arche_tape/src/static_query.rs: iter, next", "arche_tape/src/dyn_query.rs: iter, next", "benches/bench_static.rs", "benches/bench_dynamic.rs", "playground/src/main.rs"]}
{"id": "C64", "title": "Loops over live queries do not disturb each other", "statement": "Loops over any number of queries that are alive at the same time take turns in any order, one access (call of next, read or store through a reference) at a time. No turn is a fault, the number of turns is bounded, and the loops can always be continued to their ends. Then every loop remembers what it would remember had it been alone, the components it can write have the values it would have given them alone, and all other components are unchanged; so all orders of turns give the same result. Two such loops without memory also give the same result one after the other in either order.", "quantifier": "every reachable world (fewer than 2^32 tables), every list of static and dynamic queries that can be created together, every body, every order of turns", "why_tests_cant": "The number of interleavings is exponential; a missed conflict shows only in some of them.", "anchors": ["arche_tape/src/static_query.rs", "arche_tape/src/dyn_query.rs", "arche_tape/src/world.rs: query, query_dynamic, locks"]}
{"id": "C65", "title": "Programs can be proved correct without looking at tables", "statement": "A program logic over plain maps (entity, component -> value) is sound for the crate: if it derives a postcondition for a program that makes any calls, loops over the rows of static and dynamic queries and over the columns of dynamic ones, looks entities up in queries, catches panics, and chooses what to do by everything it has seen, then on the real tables the program ends, without a memory fault, without exhausting memory and without a deadlock, and its result and the final world are as the postcondition says. A program has only one result, so every execution is as derived.", "quantifier": "every program, every reachable world, every postcondition; components smaller than 2^29 bytes", "why_tests_cant": "It is a statement about all programs and all postconditions at once.", "anchors": ["arche_tape/src/world.rs", "arche_tape/src/entity_builder.rs", "arche_tape/src/static_query.rs", "arche_tape/src/dyn_query.rs", "untyped_vec/src/lib.rs"]}
{"id": "C66", "title": "There is a table only for combinations of components that entities had", "statement": "After a call every table of the world either was there before (as a set of components), or is exactly the set of components of some entity that is in it now. This holds when the call returns and when it panics and the panic is caught. So in a world where all entities ever had one of the combinations in a list S there are no tables for other combinations, and no more tables than S has members; tables are not created per call, per entity or in advance.", "quantifier": "every reachable world, every call that meets its contract, returning or panicking; every list S of fewer than 2^32 combinations", "why_tests_cant": "Tests compare a few tables after a few calls; that no other table appears on any path, and that a panicking call leaves no table that nothing needs, is a statement about all of them.", "anchors": ["arche_tape/src/world.rs:440-850", "arche_tape/src/entity_builder.rs"]}
{"id": "C67", "title": "A world is a database of entities with values", "statement": "Programs that use component types only (they spawn and despawn entities, add, remove and check components, loop over queries storing values chosen by each row, and look entities up in queries, choosing what to do by everything they have seen) can be proved correct in a logic that speaks of a list of entities with their values and of nothing else. If the logic derives a postcondition for a program, the program run on a new world ends without panic, memory fault or exhausted capacity; its result is as the postcondition says, the living entities are exactly those of the list and those that stand for component types, their components in the tables have exactly the values of the list, despawned entities stay dead, and there are no more tables than combinations of types. Every execution is as derived.", "quantifier": "every such program, every postcondition, all types smaller than 2^29 bytes, fewer than 2^32 spawns, despawns and combinations of types", "why_tests_cant": "It is a statement about all programs and postconditions at once.", "anchors": ["arche_tape/src/world.rs", "arche_tape/src/lib.rs:6-15", "arche_tape/src/entity_builder.rs", "arche_tape/src/static_query.rs", "arche_tape/src/entities.rs"]}
{"id": "C68", "title": "The playground and the benchmarks of typed components do what they say", "statement": "Run on a new world, the playground and each benchmark of benches/bench_static.rs ends without panic however often it is run: no unwrap of get fails, no add_component or remove_component panics. Afterwards the entities are exactly those that were spawned, in the order of the returned list; every run of the frag_iter benchmarks has doubled Data of each entity once (simple_iter and simple_large_iter: has added once), nothing else has changed; nothing is left of the components that add_remove adds; get changes nothing; and there is one table for each combination of components in the program and one without components.", "quantifier": "every number of runs, all different TypeIds, all values and all functions on bytes in place of floating point arithmetic; the general theorems also for all rows and types", "why_tests_cant": "Criterion chooses the number of runs at run time, and the benchmarks check nothing; the theorem covers all numbers of runs and all values.", "anchors": ["playground/src/main.rs", "benches/bench_static.rs", "arche_tape/src/world.rs", "arche_tape/src/static_query.rs"]}
{"id": "C69", "title": "A program logic for the whole API", "statement": "Programs that use everything in the API (components made at run time and component types, registration, builders with any metadata or capacity and any mix of typed, dynamic and tag components, typed and dynamic additions and removals, despawn, is_alive, has_component, reads and writes through get_component_mut_dynamic, loops over the rows of typed and dynamic queries and over the columns of dynamic ones, look-ups in queries) can be proved free of panics and correct in a logic that speaks of a ledger: the list of entities with their metadata and values, the ids of the types, the despawned entities. If the logic derives a postcondition for a program, the program run on a new world ends without panic, memory fault or exhausted capacity; its result is as the postcondition says; and the ledger is exactly right about the tables: the entities alive, their metadata, all components with their values, the type map, the dead entities, and a bound on the number of tables. Every execution is as derived.", "quantifier": "every such program, every postcondition, all components smaller than 2^29 bytes, fewer than 2^32 ids and despawns; loops with fewer than 2^32 combinations of components", "why_tests_cant": "It is a statement about all programs and postconditions at once.", "anchors": ["arche_tape/src/world.rs", "arche_tape/src/entity_builder.rs", "arche_tape/src/static_query.rs", "arche_tape/src/dyn_query.rs", "arche_tape/src/entities.rs"]}
{"id": "C70", "title": "The benchmarks of dynamic components do what they say", "statement": "Each program of benches/bench_dynamic.rs, set up on a new world and then run any number of times, ends without panic or memory fault. The ids it made are alive, all different, have the metadata they were made with and no components; the entities it spawned are alive, different from each other and from the ids, and have exactly the components they were given; the values the loop changes are those of n applications of the loop body, all others are unchanged; no component type was registered; there are no other entities, and at most one table for each combination of components used and one for the empty one.", "quantifier": "every number of runs, every arithmetic on the bytes, every start value; and for the general form all metadata, rows, queries and loop bodies", "why_tests_cant": "The benchmarks assert nothing; their values after n runs depend on every insertion and every sweep over tables.", "anchors": ["benches/bench_dynamic.rs", "arche_tape/src/dyn_query.rs", "arche_tape/src/entity_builder.rs", "arche_tape/src/world.rs"]}
{"id": "C71", "title": "The capacity of an UntypedVec stays below isize::MAX", "statement": "An UntypedVec never has a capacity of isize::MAX bytes or more, as the safety comments of push_raw and as_slice say (offsets fit an isize), and push_raw panics exactly when there is no room and the first block would have no valid layout or the doubled block would have isize::MAX bytes or more.", "quantifier": "every history of calls of an UntypedVec, every layout and source", "why_tests_cant": "Such blocks cannot be allocated in a test; the bound depends on all earlier growth.", "anchors": ["untyped_vec/src/lib.rs:80-109", "untyped_vec/src/lib.rs:119-143", "untyped_vec/src/lib.rs:310-325"]}
{"id": "C72", "title": "The order of iteration follows from the calls", "statement": "Queries visit entities in an order that the calls before determine. Each combination of components has a line; lines are ordered by when a combination first occurred. A new entity enters at the end of the line for its components, component entities of new types when the type is first named; an entity that gains or loses a component leaves its line and enters the other at the end; an entity that leaves (also by despawn) is replaced by the last of its line. Reads, writes and queries change nothing, nor does a call that does nothing because an entity is dead; a call that panics at most lets entities enter. iter of static and dynamic queries goes through the lines that have all that is asked for, one after the other, and column_iter gives these lines as columns in the same order. So the order of others is kept when an entity enters, and when one leaves a line that is not visited.", "quantifier": "every reachable world with fewer than 2^32 tables, every call, every query", "why_tests_cant": "The order depends on the whole history: table creation, edges, swap_remove in the entity list and all columns, and the bit order of the archetype iterator.", "anchors": ["arche_tape/src/world.rs:143-222", "arche_tape/src/world.rs:285-330", "arche_tape/src/entity_builder.rs", "arche_tape/src/static_query.rs", "arche_tape/src/dyn_query.rs", "arche_tape/src/bitset_iterator.rs"]}
{"id": "C73", "title": "Building with components is the same as adding them one by one", "statement": "An entity that is built with components cannot be told apart from one that is built with only some of them (or none) and gets the others by add_component, add_component_dynamic and add_component_dynamic_with_data afterwards, in the order of the chain: it has the same id, none of the later calls panics, new types get the same component entities, and the two worlds show the same (so that every later conversation has the same answers, C58).", "quantifier": "every reachable world, every chain of builder calls that returned, every point at which it is split", "why_tests_cant": "The two ways share almost no code: the builder packs bytes and finds or makes one table, the calls move the entity through a table for every prefix of the components.", "anchors": ["arche_tape/src/entity_builder.rs", "arche_tape/src/world.rs:143-222"]}
{"id": "C74", "title": "Calls that are undone or overridden leave no trace", "statement": "Writing the value a component has, or removing a component and adding it again with the same value, changes nothing that can be seen. A write followed by the removal of the component is the same as the removal alone. Whatever calls are made about the components of an entity before it is despawned, also calls that panic, the world afterwards shows the same as without them, if the components added were in use before. Of an entity that is spawned and despawned again nothing remains but its id: which ids are alive, and everything else, is as before.", "quantifier": "every reachable world, every such sequence of calls, of any length", "why_tests_cant": "The tables, columns, edges and caches do differ afterwards; that none of the difference can be observed is a statement about all later calls.", "anchors": ["arche_tape/src/world.rs:143-330", "arche_tape/src/entity_builder.rs"]}
{"id": "C75", "title": "Which destructors run, and in which order, follows from the calls", "statement": "The calls made so far determine the destructors that run and their order. Despawning an entity drops the values it has, in ascending order of the component ids; removing a component drops its value; a call that fails because nothing is there drops nothing. The value given to add_component is dropped exactly if the entity is not alive or its type gets no id; no other call, query, loop or look-up drops anything. Worlds that look the same drop the same values in the same order when the same calls are made. Dropping a world drops the values that have bytes, table by table, in a table component by component in ascending order, the entities from the last row to the first; for a program proved in the logic of C69 these are the values in its ledger, each once.", "quantifier": "every reachable world, every call and every sequence of calls, returning or panicking", "why_tests_cant": "The tests drop one value at a time. That the order does not depend on the tables an entity went through, on caches or on the order in which columns were made needs all histories.", "anchors": ["arche_tape/src/world.rs:173-190", "arche_tape/src/world.rs:115-125", "arche_tape/src/world.rs:339-390", "untyped_vec/src/lib.rs:363-377"]}
{"id": "C76", "title": "Every edge between tables is searched for at most once", "statement": "When a call takes an entity from one table to another, the old table has the way (component and target) in its map and in its array of recent edges afterwards. Edges stay in the map whatever calls are made, panicking ones included, and every edge leads to the table with exactly that component more or less. An edge in the map is followed by looking at its table only, without searching the sets of tables; an edge in the array is followed without any change. The array has at most four entries, no two for the same component, all of them in the map.", "quantifier": "every reachable world, every call, every later history", "why_tests_cant": "A cache that forgets, or is filled but not used, or keeps two entries for a component gives the same answers in every test; only the search it saves differs.", "anchors": ["arche_tape/src/world.rs:28-61", "arche_tape/src/world.rs:201-207", "arche_tape/src/world.rs:607-667", "arche_tape/src/world.rs:748-790"]}
{"id": "C77", "title": "Data is opaque to the world", "statement": "Take two programs that make the same calls for the same entities, but with different bytes in the values, with other types of the same sizes (different types stay different), other alignments, other drop functions or other capacities reserved. All their answers correspond: the same ids, the same booleans, the same panics, corresponding values. Their worlds show corresponding maps, have the same tables with the same entities in the same order, make corresponding drop calls in the same order, also when they are dropped, and queries produce corresponding rows in the same order. This holds for programs that choose the next call by the answers, if they treat data alike.", "quantifier": "every reachable pair of worlds, every correspondence of bytes, types and drop functions, every pair of conversations, of any length, returning or panicking", "why_tests_cant": "It is a statement about pairs of executions. That no branch depends on a byte, a type id or an alignment cannot be seen in one run.", "anchors": ["arche_tape/src/world.rs:143-480", "arche_tape/src/entity_builder.rs:163-370", "arche_tape/src/lib.rs:29-87", "untyped_vec/src/lib.rs:100-377"]}
{"id": "C78", "title": "An ArrayVec owns its elements", "statement": "Every value handed to push or push_start of an ArrayVec has its destructor run exactly once: when push finds the array full, when push_start evicts it, or when the array is dropped.", "quantifier": "every element type, capacity and sequence of calls, destructors that unwind included", "why_tests_cant": "It is violated for destructors that unwind: push_start lowers len after running the destructor of the evicted element, so that it runs again. The crate itself only stores values without destructors.", "anchors": ["arche_tape/src/array_vec.rs:19-48", "arche_tape/src/array_vec.rs:95-104"]}
{"id": "C79", "title": "Printed ids can be told apart", "statement": "Display and Debug of different ids are different texts, also of generations and indices alone; the numbers are written with eight hexadecimal digits that read as the number, so that both can be read off the text of an id.", "quantifier": "every pair of ids", "why_tests_cant": "2^64 ids.", "anchors": ["arche_tape/src/entities.rs:6-37"]}
{"id": "C80", "title": "Loops over columns", "statement": "column_iter and iter are two views of the same rows: walking the columns of column_iter row by row, with the sizes of the elements as strides, gives the very pointers that iter gives, in the same order. A loop `for columns in query.column_iter()` whose body looks at all rows of the columns, remembers what it likes, and stores values through the columns of the mutable fetches, in any order: it ends and is never a fault; the body runs exactly once for each combination of components that contains what is asked for, and is shown the values its entities had when the loop began; afterwards the stored components of these entities have the stored values and nothing else has changed. If the body does for row after row what the body of a loop over iter does, the two loops have the same result.", "quantifier": "every reachable world (fewer than 2^32 tables), every set of other live queries, every non-empty dynamic query, every body with any memory", "why_tests_cant": "The pointers are raw, the lengths are those of the entity lists and the strides are the caller's; that they fit together is a statement about all histories. No test in the repository calls column_iter.", "anchors": ["arche_tape/src/dyn_query.rs:54-76", "arche_tape/src/dyn_query.rs:191-248"]}
{"id": "C81", "title": "A family of UntypedVecs owns its values", "statement": "Values are handed to vecs by push_raw or by replacing an element through its pointer, travel between vecs by swap_move_element_to_other_vec, and leave by pop, swap_remove, by being replaced, or when their vec is dropped. At any time the drop calls made so far, together with those due for the values still stored and the values taken out, are one call for each value handed in, by the drop function of its type: no value is lost, dropped twice, or dropped by the function of another type. When a drop function panics, the value it was called on counts as dropped; if this happens while a vec is being dropped, exactly the values in front of it stay undropped, and still nothing is dropped twice.", "quantifier": "every number of vecs, every set of types, every sequence of operations in any order on any of the vecs, including dropping some and creating new ones, whichever drop functions panic", "why_tests_cant": "Each test looks at one short sequence. Violated for zero sized types (dropping the vec leaks, pop of an empty vec makes up a value) and, when the types of two vecs differ but have the same layout, a moved value is dropped by the wrong function, because PartialEq for TypeInfo ignores the drop function.", "anchors": ["untyped_vec/src/lib.rs:17-21", "untyped_vec/src/lib.rs:112-146", "untyped_vec/src/lib.rs:199-304", "untyped_vec/src/lib.rs:363-377"]}
{"id": "C82", "title": "A destructor that panics harms at most two entities", "statement": "When a component's destructor unwinds out of despawn, remove_component or remove_component_dynamic (caught by the caller), the set of live ids, the ids to be handed out and the component types are unchanged, and every entity other than the one the call was about and the last one of that entity's table keeps its row, every component value and every component pointer. After an unwound despawn the id is alive but in no table and despawning it again panics at once without a change; the last entity of the table has taken its place, with its own values in the columns up to the one whose destructor panicked and those of the despawned entity in the later ones; get_component_mut_dynamic panics for it in the former columns and gives its old pointer in the latter, and for the despawned id gives pointers to the components the last entity now has. After an unwound removal the last entity of the table has no components and the entity of the call (if another) has those of the last one; get_component_mut_dynamic panics for the last entity and gives the old pointers for the entity of the call.", "quantifier": "all reachable worlds, all entities and components, all choices of panicking destructors (also depending on the destructors that ran before)", "why_tests_cant": "needs a panic in every column of every table shape and every row position, and a look at every other entity and pointer afterwards; the project has no test with a panicking destructor", "anchors": ["arche_tape/src/world.rs:173-199", "arche_tape/src/world.rs:339-357", "arche_tape/src/world.rs:798-849", "untyped_vec/src/lib.rs:200-224", "untyped_vec/src/lib.rs:275-304"]}
{"id": "C83", "title": "After a despawn that unwound, queries and further despawns are memory safe; spawning is not", "statement": "Starting from any world safe code can make, let the program only make, use and drop queries and despawn entities, where destructors may panic in any despawn and every panic is caught. Then no despawn has undefined behaviour, no value is lost or dropped twice, the world can be dropped, iterators of static and dynamic queries, columns, StaticQuery::get and get_component_mut_dynamic never do more than panic, and every reference or pointer they give may be read and written at its full size. This does not extend to spawning: there is a world in which a despawn unwinds, the next build panics on its length assertion, and a query then reads a component value that does not exist.", "quantifier": "all worlds of safe histories (including leaked queries and builders), all sequences of queries, writes through references, releases and despawns, all choices of panicking destructors (also depending on earlier ones), all entities and components", "why_tests_cant": "needs arbitrarily many despawns each unwinding in an arbitrary column, with every query shape and every stale id afterwards; reading past the end of a column may go unnoticed in a test", "anchors": ["arche_tape/src/world.rs:173-199", "arche_tape/src/world.rs:339-357", "arche_tape/src/world.rs:852-878", "arche_tape/src/static_query.rs:87-210", "arche_tape/src/dyn_query.rs:35-146", "arche_tape/src/entity_builder.rs:220-262", "untyped_vec/src/lib.rs:200-224"]}
{"id": "C84", "title": "A world's memory is bounded by its peak", "statement": "The number of slots of a world is exactly the largest number of ids that were alive at once between two calls of its history (ids of component types and of builders dropped without build included): slots of despawned entities are used again before new ones are added, by every call, whether it panics or not. Free slots are those minus the live ids. The table of entity records has at most as many entries, every live id has an index below it, at most as many entities are in the tables, and the block of every column has room for at most twice as many values (or four). As long as no more ids are alive than before, a call adds no slot.", "quantifier": "every history of calls, with caught panics", "why_tests_cant": "The bound is over whole histories; a leak of one slot per some sequence of calls shows only after very many calls.", "anchors": ["arche_tape/src/entities.rs:94-127", "arche_tape/src/world.rs:465-476", "untyped_vec/src/lib.rs:80-109"]}
{"id": "C85", "title": "An id without an entity is lost for ever", "statement": "A builder that is dropped without build, or one of whose calls panics before build, leaves an id that is alive and has no entity (unless no id was left). No later call builds it or frees its slot: it stays alive without an entity for ever, has no component, despawn of it panics and changes nothing, and no call that adds or removes a live component of it returns. So a program can use up all 2^32 slots without making an entity, and the peak of C84 is not bounded by the number of entities.", "quantifier": "every reachable world, every such builder, every later history (with caught panics); every n up to 2^32 for the leak", "why_tests_cant": "For ever, and 2^32 ids.", "anchors": ["arche_tape/src/entity_builder.rs:28-59", "arche_tape/src/entities.rs:94-127", "arche_tape/src/world.rs: despawn"]}
{"id": "C86", "title": "Memory safety ends when a generation wraps around", "statement": "Memory safety of safe programs (C48) needs its bound on recycling. For every type with a size and every value of it there is a program of safe calls on a new world that all return (get the id of the type, despawn it, recycle its slot 2^32-1 times and once more leave it alive, spawn an entity with a component of the type) after which the id of the type is the id of another live entity, without data: the value was thrown away, a safe query of the type reads outside its column (get makes a reference of the wrong type, iter moves a pointer out of its block). With any smaller number of recyclings the id is dead, the world is one of those C48 speaks of, and the last spawn panics.", "quantifier": "every type with a size, every value; every smaller number of recyclings", "why_tests_cant": "The program makes more than 2^33 calls.", "anchors": ["arche_tape/src/entities.rs:94-127", "arche_tape/src/world.rs:440-456", "arche_tape/src/entity_builder.rs:189-215", "arche_tape/src/static_query.rs"]}
{"id": "C87", "title": "Recycling is harmless while types live", "statement": "A program that despawns no id of a type is memory safe however often it recycles slots, also past the 2^32 recyclings after which ids repeat: no call touches memory it may not touch, everything C61 says about leaked queries, iterators and builders holds, the world can be dropped, and the id of every type stays alive and keeps the layout and destructor of its type. There are such programs past the bound: a slot recycled 2^32-1 times is in no reachable world of the other properties, and the next spawn hands out the first id again.", "quantifier": "every history of calls, caught panics, leaked queries and builders that despawns no type; any number of recyclings", "why_tests_cant": "A slot must be recycled more than four thousand million times before the bound matters.", "anchors": ["arche_tape/src/entities.rs:94-127", "arche_tape/src/world.rs:440-456", "arche_tape/src/world.rs:173-199", "arche_tape/src/entity_builder.rs"]}
{"id": "C88", "title": "The world cannot be told apart from plain maps, however long the program", "statement": "C57 and C75 without the bound on recycling: in every conversation of a program that despawns no id of a type with a World, all answers and panics are those of the world of plain maps, also after a slot was recycled 2^32 times and its ids are handed out again; the calls of destructors are exactly those the maps ask for; and static queries, lookups in them, and dynamic queries for components that were built show exactly the rows the maps say. There are such conversations past the bound, in which an id that was found dead is alive again. A single call behaves like the maps even after types were despawned, as long as no slot of a type is used up.", "quantifier": "all programs of any length that despawn no type, starting with a new world, including those that carry on after panics; any number of recyclings", "why_tests_cant": "A refinement claim over all call sequences, of which only those with more than four thousand million calls are new.", "anchors": ["arche_tape/src/entities.rs:94-127", "arche_tape/src/world.rs: World", "arche_tape/src/entity_builder.rs: EntityBuilder", "arche_tape/src/static_query.rs", "arche_tape/src/dyn_query.rs", "arche_tape/src/archetype_iter.rs"]}
{"id": "C89", "title": "An id comes back only after every id of its slot was despawned", "statement": "In every conversation with a World, panics included, that does not use up the slot of a type: an id handed out by a builder or by the first registration of a type is alive; an id that is alive stays alive until it is despawned; it is handed out again only after it and all other 2^32 - 1 ids of its slot were despawned, which takes at least 2^33 - 1 questions; a despawned id is alive again only after all other ids of its slot were despawned, which again takes 2^33 - 1 questions, and both bounds are attained; before that is_alive reports it dead. The id of a type is never handed out again and remains the id of that type, even if it was despawned.", "quantifier": "all worlds a program can reach (also past 2^32 recyclings), all continuations of any length, all ids, all questions that hand out an id", "why_tests_cant": "The shortest counterexample candidates have eight thousand million calls, and the claim is about all of them.", "anchors": ["arche_tape/src/entities.rs:94-127", "arche_tape/src/world.rs: World::spawn, World::despawn, World::is_alive", "arche_tape/src/entity_builder.rs: EntityBuilder"]}
{"id": "C90", "title": "A component holds the value that was put there last", "statement": "In every conversation with a World, panics included, that does not use up the slot of a type: what an entity that is alive and not despawned has of a component that is built and not despawned is the result of a fold over the questions about that entity and that component, in which a successful add (typed or dynamic) puts the value, a successful remove removes it, a write replaces a value that is there, and all else, in particular every call that panicked and every call about other entities or components, does nothing. get_component_mut_dynamic and has_component show exactly this. An entity that no question involves keeps all its components, their values and its metadata; a component keeps its metadata until it is despawned.", "quantifier": "all worlds a program can reach, all continuations of any length, all entities and components", "why_tests_cant": "Quantifies over all histories and everything that may happen in between to other entities, which moves the rows of this one from table to table.", "anchors": ["arche_tape/src/world.rs: World", "arche_tape/src/entity_builder.rs: EntityBuilder", "arche_tape/src/world.rs: add_component_dynamic_with_data, remove_component_dynamic, get_component_mut_dynamic"]}
{"id": "C91", "title": "What a typed program must expect", "statement": "In every conversation with a World from its creation on, panics included, that does not use up the slot of a type, and for every type whose id is not despawned and not used as a dynamic component: what any entity (alive or not, its id recycled or not) has of that type is the result of a fold over the questions and answers of the whole conversation, which mentions neither ids of components nor states: a finished builder gives its entity the values it was given, a successful add_component puts its value, a successful remove_component or despawn removes, and all else, in particular every panic, does nothing. has_component and get_component_mut_dynamic show exactly this, and so do static queries for such types: iterating gives one row for each entity the fold gives a value of every requested type, with those values, and a lookup gives the row of its entity. It does not matter when the type is registered; its id stays alive. The same holds from any world a program can reach, given what there is then.", "quantifier": "all conversations of any length in which builders are not used after build, all entities, all types", "why_tests_cant": "Quantifies over all histories of the whole program.", "anchors": ["arche_tape/src/world.rs: World", "arche_tape/src/entity_builder.rs: EntityBuilder", "arche_tape/src/world.rs: add_component, remove_component, despawn, has_component, get_component_mut_dynamic", "arche_tape/src/static_query.rs"]}
{"id": "C92", "title": "A component through the lives of an entity", "statement": "In every conversation with a World, panics included, that does not use up the slot of a type: for every entity e that is not a type and every component c that is not despawned, whether e is in the world and what it has of c at the end is the result of a fold over the questions and answers. A finished builder that answers e puts e into the world with the value of c it was given first, if any; an answered despawn takes e out of it; while e is in the world the additions, removals and writes of c that were answered do what they say; questions about an e that is not in the world, and all panics, do nothing. A component made by a builder in the course of the conversation has at its birth the metadata it was made with and is had by no entity, so that for dynamic components the fold starts at their birth; then it mentions no types and no states. Whether an entity is in the world is a fold over the conversation alone. get_component_mut_dynamic shows exactly this. A dynamic query for such components, made at the end, iterates over one row for each entity that the fold says has all of them, with the values it says (for the entities that are not ids of types), each once.", "quantifier": "all conversations of any length in which builders are not used after build, all entities, all components, all metadata", "why_tests_cant": "Quantifies over all histories in which entities come and go, typed and dynamic accesses mixed.", "anchors": ["arche_tape/src/world.rs: World", "arche_tape/src/entity_builder.rs: EntityBuilder", "arche_tape/src/world.rs: add_component_dynamic, add_component_dynamic_with_data, remove_component_dynamic, get_component_mut_dynamic, despawn, spawn_with_component_meta", "arche_tape/src/dyn_query.rs: DynQuery::iter, DynQueryIter::next"]}
