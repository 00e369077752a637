{"id": "C01", "title": "EntityId packs index and generation losslessly", "statement": "EntityId::new_from_index_and_gen(i, g) for i < 2^48-1 yields an id whose index() is i and gen() is g, whose inner() is non-zero, and from_inner(inner()) gives the same id back; two ids are equal iff both index() and gen() agree.", "quantifier": "all indices below 2^48-1, all 16-bit generations, all pairs of ids", "why_tests_cant": "the domain has 2^64 values; a sample cannot exclude one colliding or truncated bit pattern", "anchors": ["src/entity_id/mod.rs: new_from_parts, index, gen, inner, from_inner"]}
{"id": "C02", "title": "EntityId serialization round-trips", "statement": "Deserializing a serialized EntityId gives the same id, in the human readable (index, gen) form and in the binary form, and distinct ids have distinct encodings.", "quantifier": "all entity ids with an index below 2^48-1, both formats", "why_tests_cant": "2^64 ids; the -1/+1 shift of the binary form can go wrong on a single boundary id", "anchors": ["src/entity_id/serde.rs"]}
{"id": "C03", "title": "Entity ids are never handed out twice", "statement": "Along any history of add_entity, bulk_add_entity and delete_entity calls, no id returned by an add equals an id returned by any earlier add, even if the earlier entity has been deleted and its slot recycled.", "quantifier": "all finite histories of entity creations and deletions, deleting any id at any time", "why_tests_cant": "a reuse needs a particular interleaving of deletes and adds of unbounded length", "anchors": ["src/entities/mod.rs: generate, bulk_generate, delete_unchecked"]}
{"id": "C04", "title": "is_alive tracks exactly the added and not yet deleted entities", "statement": "After any history, is_alive(e) is true iff e was returned by an add and no later delete was applied to e; delete returns true exactly when e was alive, and deleting an entity never changes the liveness of another id.", "quantifier": "all finite histories, all ids (including never issued, stale or forged ones)", "why_tests_cant": "needs every history and every id, also ids a test would never forge", "anchors": ["src/entities/mod.rs: is_alive, delete_unchecked, generate"]}
{"id": "C05", "title": "Iterating Entities yields exactly the alive ids", "statement": "Iterating EntitiesView yields each alive id exactly once, in increasing index order, and nothing else.", "quantifier": "all reachable entity stores", "why_tests_cant": "free-list links are stored in place of ids, so a wrong link could masquerade as an alive id in some history only", "anchors": ["src/entities/iterator.rs: filter_map", "src/entities/mod.rs: iter"]}
{"id": "C06", "title": "The entity free list never corrupts memory", "statement": "No sequence of entity operations makes the entity store read or write outside of its slots or panic: each recycled slot exists, is not alive, and is recycled once.", "quantifier": "all finite histories of add, bulk add, delete and spawn with in-range ids", "why_tests_cant": "the code uses get_unchecked; an out-of-bounds index needs a specific history", "anchors": ["src/entities/mod.rs: generate, delete_unchecked, spawn"]}
{"id": "C07", "title": "Slots are recycled before new ones are allocated", "statement": "add_entity allocates a new slot only when no deleted slot is available, deleted slots are recycled in the order of their deletion, and the number of slots equals the number of alive entities plus the number of recyclable slots. A slot that has used up its generations is not recyclable.", "quantifier": "all finite histories of adds and deletes", "why_tests_cant": "a leak of slots shows only as growth over unbounded histories", "anchors": ["src/entities/mod.rs: generate, delete_unchecked"]}
{"id": "C08", "title": "bulk_add_entity creates one fresh entity per component in order", "statement": "bulk_add_entity(iter) creates exactly one entity per component of iter, gives the i-th component to the i-th returned id, and the returned ids are fresh and alive.", "quantifier": "all component sequences, all size hints an iterator may legally report, all prior histories", "why_tests_cant": "depends on how the iterator's size hint relates to its real length, and on the free list", "anchors": ["src/entities/mod.rs: bulk_add_entity", "src/advanced/reserve.rs: BulkEntityIter"]}
{"id": "C09", "title": "spawn makes exactly the requested id alive", "statement": "spawn(e) returning true makes e alive, keeps every alive entity with another index alive, leaves the free list usable, and later adds never return an id that is alive; returning false changes nothing.", "quantifier": "all reachable stores, all requested ids", "why_tests_cant": "the linked-list surgery has one case per position of the slot in a list of arbitrary length", "anchors": ["src/entities/mod.rs: spawn", "src/world.rs: spawn"]}
{"id": "C10", "title": "clear kills every entity and keeps ids unique", "statement": "After clearing the entities no id is alive, the deletion callback ran once per entity alive before, and ids returned afterwards differ from all ids returned before.", "quantifier": "all reachable stores before the clear, all following histories", "why_tests_cant": "depends on the generation reached by every slot", "anchors": ["src/entities/mod.rs: Storage::clear"]}
{"id": "C11", "title": "on_deletion is called exactly once per deleted entity", "statement": "Along any history of adds and deletes, the on_deletion callback receives precisely the sequence of ids whose delete returned true, in order.", "quantifier": "all finite histories with a callback registered", "why_tests_cant": "needs all histories, including deletes of stale ids and recycled slots", "anchors": ["src/entities/mod.rs: delete_unchecked, on_deletion"]}
{"id": "C12", "title": "A component storage behaves like a map from entity to component", "statement": "After any sequence of insertions, removals, deletions, sorts, retains and clears on a storage, reading an entity returns the component most recently written for that very id, or nothing if it was removed or never written, or if a newer entity of the same index has taken its place since.", "quantifier": "all finite operation sequences, all entity ids, all component values", "why_tests_cant": "swap_remove moves other entities' components; a broken back link appears only for some removal orders", "anchors": ["src/sparse_set/mod.rs: insert, actual_remove, index_of, private_get", "src/sparse_set/sparse_array.rs"]}
{"id": "C13", "title": "A stale handle never touches a newer entity's component", "statement": "If a storage holds the component of entity (i, g) then an id (i, g') with g' < g can neither read, overwrite, remove nor delete it, and inserting with it reports that nothing was inserted.", "quantifier": "all reachable storages, all pairs of generations", "why_tests_cant": "requires all pairs of generations and all storage states", "anchors": ["src/sparse_set/mod.rs: insert, index_of, actual_remove, delete"]}
{"id": "C14", "title": "The paged sparse array is a plain index lookup", "statement": "Storing an entity in the paged sparse array and looking one up behaves as one flat table over all indices: pages allocated on demand never alias and an absent page reads as no entity.", "quantifier": "all indices, all sequences of allocations and writes", "why_tests_cant": "page boundaries occur at every multiple of 32 of an unbounded index space", "anchors": ["src/sparse_set/sparse_array.rs", "src/entity_id/mod.rs: bucket, bucket_index"]}
{"id": "C15", "title": "Removing a component returns it once and affects no other entity", "statement": "remove(e) returns the component iff present, afterwards e has no component, and every other entity keeps its component, its insertion and its modification timestamps.", "quantifier": "all reachable storages, all entities", "why_tests_cant": "swap_remove relocates an arbitrary other entity's data in four parallel arrays", "anchors": ["src/sparse_set/mod.rs: dyn_remove, actual_remove"]}
{"id": "C16", "title": "Removal and deletion logs are exact", "statement": "With tracking enabled, removed() / deleted() list exactly the (entity, timestamp) pairs of successful removals / deletions since the last clear of the log, in order; deletions also record the component. Failed removals log nothing.", "quantifier": "all finite histories of removals, deletions and log clears", "why_tests_cant": "unbounded histories; each failing removal must not log", "anchors": ["src/sparse_set/mod.rs: dyn_delete, dyn_remove, clear_all_deleted, clear_all_removed, clear_all_deleted_older_than_timestamp"]}
{"id": "C17", "title": "clear_all_removed_and_deleted empties both logs", "statement": "After clear_all_removed_and_deleted on a storage view, both removed() and deleted() are empty.", "quantifier": "all reachable storages", "why_tests_cant": "needs any non-empty deletion log", "anchors": ["src/sparse_set/mod.rs: clear_all_removed_and_deleted", "src/views/view_mut.rs"]}
{"id": "C18", "title": "Sorting a storage permutes whole rows", "statement": "sort_unstable(_by) leaves the components ordered by the comparison and is a permutation of (entity, component, insertion time, modification time) rows: each entity keeps its own component and timestamps.", "quantifier": "all storages, all total preorders used as comparison", "why_tests_cant": "the in-place cycle walk must be right for every permutation of every length", "anchors": ["src/sparse_set/mod.rs: sort_unstable_by"]}
{"id": "C19", "title": "retain keeps exactly the components satisfying the predicate", "statement": "retain(f) calls f once per component, keeps exactly those for which f returned true with unchanged value, and logs each other one as deleted.", "quantifier": "all storages, all predicates", "why_tests_cant": "removal during traversal swaps unvisited elements into visited positions", "anchors": ["src/sparse_set/mod.rs: private_retain, private_retain_mut"]}
{"id": "C20", "title": "drain and clear empty the storage and hand out each component once", "statement": "drain yields each (entity, component) exactly once and leaves the storage empty, even if the iterator is dropped half way; clear leaves it empty; every drained or cleared entity is logged as removed resp. deleted when tracked.", "quantifier": "all storages, all points at which the drain iterator is dropped", "why_tests_cant": "any drop point of a drain of arbitrary length", "anchors": ["src/sparse_set/mod.rs: private_drain, private_clear", "src/sparse_set/drain.rs"]}
{"id": "C21", "title": "Removal callbacks fire once per component leaving the storage", "statement": "on_removal is called exactly once, with the right entity and component, whenever a component leaves the storage through remove, delete, retain, clear or drain; on_insertion exactly once per component inserted.", "quantifier": "all finite histories", "why_tests_cant": "requires every way a component can leave the storage in every state", "anchors": ["src/sparse_set/mod.rs: insert, actual_remove, private_clear, private_drain"]}
{"id": "C22", "title": "apply and apply_mut act on precisely the two named entities", "statement": "apply(a, b, f) gives f exclusive access to a's component and shared access to b's, leaves every other entity untouched, and panics if a and b are the same entity or one misses the component.", "quantifier": "all storages, all pairs of entities", "why_tests_cant": "relative order of two dense positions, and aliasing, over all storages", "anchors": ["src/sparse_set/mod.rs: private_apply, private_apply_mut"]}
{"id": "C23", "title": "Inserted and modified are reported exactly once per run of a workload system", "statement": "For a system that runs repeatedly in workloads, each component insertion (modification) performed before a run and after the previous one started is reported by inserted() (modified()) in exactly one run, never zero and never two.", "quantifier": "all finite interleavings of writes and system runs, including failing runs", "why_tests_cant": "windows of an unbounded sequence of runs must tile time with no gap or overlap", "anchors": ["src/scheduler/into_workload_system.rs: last_run", "src/advanced/tracking.rs: is_within", "src/views/view.rs"]}
{"id": "C24", "title": "inserted / modified flags of each component are exact", "statement": "In a view with window (last, current], is_inserted(e) holds iff e's component was inserted at a timestamp in the window, is_modified(e) iff it was written through a mutable access in the window; an insertion does not count as a modification and an unaccessed component is never flagged.", "quantifier": "all storage histories, all windows, all entities", "why_tests_cant": "timestamps of each entity must follow it through swaps, sorts and removals", "anchors": ["src/sparse_set/mod.rs", "src/views/view.rs", "src/mut.rs"]}
{"id": "C25", "title": "Clearing tracking through a view hides exactly the past", "statement": "After view.clear_all_inserted() (clear_all_modified()) no insertion (modification) done before is reported to a view obtained afterwards outside of workloads, and everything done after is.", "quantifier": "all histories before and after the clear", "why_tests_cant": "boundary between consecutive timestamps, over all histories", "anchors": ["src/views/view_mut.rs: clear_all_inserted", "src/sparse_set/mod.rs: private_clear_all_inserted"]}
{"id": "C26", "title": "World::clear_all_inserted / clear_all_modified hide exactly the past", "statement": "After world.clear_all_inserted() (clear_all_modified()) nothing done before is reported and every insertion (modification) done after is reported.", "quantifier": "all histories before and after the clear, component and unique storages", "why_tests_cant": "off-by-one of one timestamp, for every storage kind", "anchors": ["src/all_storages/mod.rs: clear_all_inserted, clear_all_modified", "src/unique.rs", "src/world.rs"]}
{"id": "C27", "title": "clear_all_removed_and_deleted_older_than keeps exactly the younger entries", "statement": "clear_all_removed_and_deleted_older_than_timestamp(t) keeps precisely the log entries with a timestamp not older than t, in order, in all storages.", "quantifier": "all logs, all timestamps", "why_tests_cant": "all logs and all thresholds", "anchors": ["src/sparse_set/mod.rs: clear_all_removed_and_deleted_older_than_timestamp", "src/all_storages/mod.rs"]}
{"id": "C28", "title": "Unique storages report insertion and modification exactly", "statement": "A unique is reported inserted / modified by a view iff it was added / mutably dereferenced in the view's window; shared access never marks it modified.", "quantifier": "all histories of accesses to a unique, all windows", "why_tests_cant": "all access histories", "anchors": ["src/unique.rs", "src/views/unique_view.rs", "src/views/unique_view_mut.rs"]}
{"id": "C29", "title": "Joint iteration yields exactly the entities having all components", "statement": "Iterating a tuple of views yields precisely the entities present in every view, each once, together with that entity's own components, whichever storage drives the iteration.", "quantifier": "all tuples of views, all storages contents, all driving choices", "why_tests_cant": "all combinations of storage contents and sizes", "anchors": ["src/iter/mixed.rs", "src/iter/into_shiperator.rs", "src/iter/sailor.rs", "src/iter/captain.rs"]}
{"id": "C30", "title": "Not and optional views filter as documented", "statement": "Adding !view to a tuple keeps exactly the entities absent from that view; adding view.as_optional() never filters and yields Some exactly for the entities present.", "quantifier": "all storages contents", "why_tests_cant": "all combinations of storage contents", "anchors": ["src/not.rs", "src/optional.rs"]}
{"id": "C31", "title": "Or iteration yields each entity of the union once", "statement": "Iterating a | b yields each entity having a or b exactly once, with the first storage's component if present and the other's otherwise, both forwards and backwards.", "quantifier": "all pairs of storages including empty ones, both directions", "why_tests_cant": "all sizes of the second storage, in particular empty slices at the switch", "anchors": ["src/or.rs", "src/iter/mod.rs: Shiperator::next, fold"]}
{"id": "C32", "title": "Tracking filters select exactly the flagged components", "statement": "view.inserted(), view.modified(), inserted_or_modified() iterate exactly the components whose flag holds in the view's window, and their negations exactly the others.", "quantifier": "all storages, all windows", "why_tests_cant": "all timestamps assignments", "anchors": ["src/track", "src/iter/captain.rs", "src/sparse_set/window.rs"]}
{"id": "C33", "title": "with_id pairs each component with its own entity", "statement": "iter().with_id() yields the id of the entity owning the yielded component for next, next_back and fold.", "quantifier": "all storages, all interleavings of next and next_back", "why_tests_cant": "all cut points from both ends", "anchors": ["src/iter/with_id.rs"]}
{"id": "C34", "title": "An iterator consumed from both ends visits each item once", "statement": "Any interleaving of next and next_back calls on a single- or multi-view iterator yields each matching entity exactly once: the fronts in order and the backs in reverse order.", "quantifier": "all interleavings of front and back calls, all storages", "why_tests_cant": "exponentially many interleavings", "anchors": ["src/iter/mod.rs: DoubleEndedIterator for Shiperator"]}
{"id": "C35", "title": "Parallel splits partition the iteration", "statement": "Splitting an iterator at any point yields two iterators that together visit precisely the items of the original, in order; so does any tree of splits.", "quantifier": "all split trees, all storages", "why_tests_cant": "rayon chooses split points dynamically", "anchors": ["src/iter/parallel.rs: split_at", "src/sparse_set/window.rs: split_at"]}
{"id": "C36", "title": "size_hint bounds are correct", "statement": "The lower and upper bounds returned by size_hint of an iterator bracket the number of items it will still yield; the exact length is given for single-view iterators.", "quantifier": "all storages, all positions within the iteration", "why_tests_cant": "all filter outcomes", "anchors": ["src/iter/mod.rs: size_hint", "src/iter/mixed.rs: is_exact_sized"]}
{"id": "C37", "title": "Runtime borrows are mutually exclusive", "statement": "In any interleaving of borrow, borrow_mut and guard drops on a storage by any number of threads, an exclusive guard never coexists with another guard.", "quantifier": "all interleavings of atomic steps of any number of threads, below 2^63 outstanding reads", "why_tests_cant": "schedules cannot be enumerated by tests", "anchors": ["src/advanced/atomic_refcell/borrow_state.rs"]}
{"id": "C38", "title": "Failed borrows leave no permanent trace", "statement": "A failed borrow hands out no guard, and once every guard has been dropped and no borrow is in progress both a shared and an exclusive borrow succeed; a borrow fails only if a conflicting guard is held.", "quantifier": "all interleavings of successful and failed borrow attempts and drops", "why_tests_cant": "a leaked count after a racing failed read shows only in certain schedules", "anchors": ["src/advanced/atomic_refcell/borrow_state.rs: read, write, check_overflow"]}
{"id": "C39", "title": "Borrowing several views is all or nothing", "statement": "When borrowing a tuple of views fails, every storage is left in the borrow state it had before; when it succeeds each requested view is held with the requested mutability.", "quantifier": "all tuples of requested views, all prior borrow states", "why_tests_cant": "all failing positions in all tuples", "anchors": ["src/borrow/mod.rs", "src/borrow/world_borrow.rs"]}
{"id": "C40", "title": "delete_entity removes the entity and all its components, and nothing else", "statement": "world.delete_entity(e) returns true iff e was alive; afterwards e is dead and has no component in any storage, and every other entity keeps liveness and all components. On a dead id nothing changes.", "quantifier": "all reachable worlds with any number of storages, all ids", "why_tests_cant": "any number of storages and histories", "anchors": ["src/all_storages/mod.rs: delete_entity, strip", "src/sparse_set/mod.rs: Storage::delete"]}
{"id": "C41", "title": "Components belong to alive entities", "statement": "In a world driven through World/AllStorages methods (add, delete, strip, add_component, remove, retain, clear), every entity with a component in some storage is alive.", "quantifier": "all histories of world operations", "why_tests_cant": "an orphan component arises only from certain orders of deletes and recycled slots", "anchors": ["src/all_storages/mod.rs", "src/entities/mod.rs: add_component"]}
{"id": "C42", "title": "strip and retain keep exactly the requested storages", "statement": "strip(e) removes all components of e and keeps it alive; retain/retain_storage removes e's components from exactly the storages not listed; other entities are untouched.", "quantifier": "all worlds, all storage selections", "why_tests_cant": "all subsets of storages", "anchors": ["src/all_storages/mod.rs: strip, retain_storage_by_id, retain", "src/all_storages/retain.rs"]}
{"id": "C43", "title": "add_component on a dead entity is rejected without effect", "statement": "add_component on a non-alive id panics before any storage changes; on an alive id each listed component is stored for that id, replacing the previous one.", "quantifier": "all worlds, all ids, all component tuples", "why_tests_cant": "all ids including stale ones", "anchors": ["src/entities/mod.rs: add_component", "src/all_storages/mod.rs: add_component", "src/sparse_set/add_component.rs"]}
{"id": "C44", "title": "remove and delete_component act on every listed component", "statement": "remove::<(A, B, ..)>(e) / delete_component::<(A, B, ..)>(e) take e's component out of every listed storage, whichever are present.", "quantifier": "all tuples, all presence patterns", "why_tests_cant": "exponentially many presence patterns", "anchors": ["src/sparse_set/delete.rs", "src/sparse_set/remove.rs", "src/all_storages/mod.rs: delete_component, remove"]}
{"id": "C45", "title": "delete_any deletes exactly the entities having one of the components", "statement": "delete_any::<(A, B, ..)>() makes every entity that has at least one listed component dead with no component left anywhere, and leaves all others untouched.", "quantifier": "all worlds, all tuples", "why_tests_cant": "overlaps between storages and recycled ids", "anchors": ["src/all_storages/mod.rs: delete_any", "src/all_storages/delete_any"]}
{"id": "C46", "title": "move_entity transfers the entity with all its components", "statement": "After world1.move_entity(world2, e) the entity is dead in world1 without components and alive in world2 with the same components; other entities of both worlds are untouched.", "quantifier": "all pairs of worlds, all entities", "why_tests_cant": "two worlds with arbitrary histories", "anchors": ["src/all_storages/mod.rs: move_entity, move_components", "src/sparse_set/mod.rs: move_component_from"]}
{"id": "C47", "title": "Cloning into another world preserves the registered components", "statement": "clone_entity_to / World::clone reproduce for each cloneable storage the same entity to component map (and the same alive set), and leave the source unchanged.", "quantifier": "all worlds, all registrations of clonable storages", "why_tests_cant": "arbitrary worlds", "anchors": ["src/all_storages/mod.rs: clone_storages_to, clone_entity_to", "src/sparse_set/mod.rs: try_clone, clone_component_to"]}
{"id": "C48", "title": "A unique is single and survives until removed", "statement": "After add_unique(x) the unique reads as x until replaced or removed; remove_unique returns the last value and then reading fails; storages of different types never interfere.", "quantifier": "all histories of unique and component operations on distinct types", "why_tests_cant": "arbitrary histories", "anchors": ["src/all_storages/mod.rs: add_unique, remove_unique", "src/unique.rs"]}
{"id": "C49", "title": "Workload building schedules every system exactly once", "statement": "A successfully built workload contains each added system exactly once in the sequential order and exactly once over all parallel batches, and the batches read in order agree with the sequential order.", "quantifier": "all workloads: any number of systems, borrows and constraints", "why_tests_cant": "any number of systems and constraint graphs", "anchors": ["src/scheduler/workload/create_workload.rs: order_systems"]}
{"id": "C50", "title": "Systems of one parallel batch never conflict", "statement": "Two systems in the same batch never access the same storage with one of them exclusively, never both need the main thread, and an AllStorages access is alone with respect to any storage access.", "quantifier": "all workloads", "why_tests_cant": "every pair in every batch of every workload", "anchors": ["src/scheduler/workload/create_workload.rs: check_conflict, check_can_go_in_parallel_batch, order_systems"]}
{"id": "C51", "title": "Explicit ordering constraints are respected", "statement": "If a constraint (before_all, after_all, barrier) puts a before b in a built workload then a precedes b in the sequential order and is in a strictly earlier batch than b.", "quantifier": "all workloads, all labels graphs", "why_tests_cant": "all constraint graphs", "anchors": ["src/scheduler/workload/create_workload.rs: map_before_all_to_after, map_after_all_to_after, propagate_barriers, order_systems"]}
{"id": "C52", "title": "Unconstrained conflicting systems run in insertion order", "statement": "Two systems without explicit ordering that conflict run in the order they were added, in both the sequential order and (in different batches) in parallel.", "quantifier": "all workloads", "why_tests_cant": "all workloads", "anchors": ["src/scheduler/workload/create_workload.rs: propagate_implicit_hard_ordering, propagate_implicit_soft_ordering"]}
{"id": "C53", "title": "Building fails with a cycle iff the constraints are cyclic", "statement": "Building a workload returns the impossible-requirements cycle error exactly when the ordering constraints contain a cycle.", "quantifier": "all constraint graphs", "why_tests_cant": "all graphs of any size", "anchors": ["src/scheduler/workload/create_workload.rs: order_systems"]}
{"id": "C54", "title": "Presence and ordering requirements are checked exactly", "statement": "require_in_workload / require_before / require_after make building fail exactly when no system with the label is in the workload / is ordered before / is ordered after the requiring system.", "quantifier": "all workloads and label sets", "why_tests_cant": "transitive closure over arbitrary graphs", "anchors": ["src/scheduler/workload/create_workload.rs: check_require_in_workload, check_require_before, check_require_after"]}
{"id": "C55", "title": "Merging and appending workloads preserves systems and their constraints", "statement": "merge / append keep all systems of both workloads in order; merge applies each workload-level tag, before_all, after_all, requirement and run_if to precisely its own systems; barriers keep their position relative to their own systems.", "quantifier": "all pairs of workloads", "why_tests_cant": "arbitrary nesting of merges", "anchors": ["src/scheduler/workload.rs: merge, append, propagate, with_barrier"]}
{"id": "C56", "title": "Parallel execution of a built workload equals sequential execution", "statement": "For systems that only access the storages they declare, running the batches with any interleaving of the systems inside each batch leaves the world in the same state as running the sequential order.", "quantifier": "all workloads, all schedules inside batches, all initial worlds", "why_tests_cant": "factorially many schedules", "anchors": ["src/world/run_batches.rs", "src/scheduler/workload/create_workload.rs"]}
{"id": "C57", "title": "Running a workload on an idle world never fails to borrow", "statement": "If no view is held outside, each system of a successfully created workload obtains all of its views in any schedule of the batch.", "quantifier": "all workloads, all schedules", "why_tests_cant": "all schedules; depends on validity checks of each system", "anchors": ["src/scheduler/into_workload_system.rs", "src/world/run_batches.rs", "src/advanced/atomic_refcell"]}
{"id": "C58", "title": "Invalid systems are rejected at creation", "statement": "Creating a system whose own views conflict (two views of one storage with one exclusive, or AllStorages exclusive with anything else) is rejected, and no other system is.", "quantifier": "all lists of views", "why_tests_cant": "all positions of the two conflicting views in arbitrary long lists", "anchors": ["src/scheduler/into_workload_system.rs: into_workload_system"]}
{"id": "C59", "title": "run_if conditions gate systems and compose by conjunction", "statement": "A system runs iff its own run_if conditions and those of all the workloads around it hold, asked from the outermost in (nesting a workload hands the conditions that each of the two workloads has at that point to its own systems, as documented at merge); skip_if negates; a false run_if of the workload that runs, runs nothing.", "quantifier": "all compositions of conditions, all worlds", "why_tests_cant": "arbitrary nesting", "anchors": ["src/scheduler/system_modificator.rs: run_if, skip_if", "src/scheduler/workload.rs: propagate", "src/scheduler/mod.rs", "src/world/run_batches.rs"]}
{"id": "C60", "title": "A failing system stops the workload with its own error", "statement": "If a system returns an error the workload returns that system's error; in sequential mode precisely the systems before it ran, in parallel mode no later batch runs.", "quantifier": "all workloads, all failing positions", "why_tests_cant": "every position and schedule", "anchors": ["src/world/run_batches.rs"]}
{"id": "C61", "title": "Workload names are managed consistently", "statement": "Adding a workload under a used name fails and changes nothing; the default is the first added unless set; rename keeps the systems and the default; set_default and run_workload fail exactly for unknown names.", "quantifier": "all histories of workload management calls", "why_tests_cant": "all histories", "anchors": ["src/scheduler/mod.rs: rename, set_default, workload", "src/scheduler/workload/create_workload.rs: create_workload"]}
{"id": "C62", "title": "Serialized storages round-trip", "statement": "Serializing a view (or the entities) and deserializing into an empty world restores exactly the same entity to component map (the same alive set).", "quantifier": "all storages and entity stores", "why_tests_cant": "arbitrary contents", "anchors": ["src/views/serde", "src/entities"]}
{"id": "C63", "title": "A unique view stays valid while it is held", "statement": "Whatever is called on the world while a UniqueView or UniqueViewMut is held, reading and writing through the view reaches the unique it was borrowed from, and no second exclusive view of that unique is given out.", "quantifier": "all sequences of add_unique, remove_unique, borrows, reads, writes and drops of views", "why_tests_cant": "memory safety over all interleavings of calls with held views", "anchors": ["src/all_storages/mod.rs: add_unique, remove_unique", "src/views/unique_view.rs", "src/views/unique_view_mut.rs", "src/views/unique_or_init.rs"]}
{"id": "C64", "title": "Removals and deletions are reported exactly once per workload run", "statement": "For a system run again and again in workloads, each removal or deletion in a tracked storage is listed in exactly one of its runs, the first run after the event, unless the logs are cleared in between.", "quantifier": "all programs of removals, deletions, clears and system runs", "why_tests_cant": "histories are unbounded", "anchors": ["src/views/view.rs: removed, deleted, removed_or_deleted", "src/advanced/tracking.rs", "src/sparse_set/mod.rs"]}
{"id": "C65", "title": "A component type tracks what it declares", "statement": "For every combination of changes a component declares with #[track(..)], its storage records exactly those changes, and the view type of the component has exactly the methods that report them.", "quantifier": "all sixteen combinations of insertion, modification, deletion, removal, in any order of the words; all histories of the storage", "why_tests_cant": "every combination and every history", "anchors": ["src/track", "shipyard_proc/src/component_expand.rs", "src/sparse_set/mod.rs: new"]}
{"id": "C66", "title": "Tracking turned on at run time reports exactly the later changes", "statement": "A view that asks for more tracking than the storage does is refused, and granted once tracking was turned on; from then on every later insertion, modification, removal and deletion is reported and no earlier one, through every way of making the change.", "quantifier": "all histories before and after tracking is turned on, all view types", "why_tests_cant": "histories are unbounded", "anchors": ["src/sparse_set/mod.rs: track_insertion, track_modification, track_deletion, track_removal, check_tracking, enable_tracking", "src/borrow/mod.rs: Borrow for View, ViewMut", "src/iter/into_shiperator.rs"]}
{"id": "C67", "title": "Components stay on the threads their type allows", "statement": "With the feature thread_local, whatever threads do with views, iterators and references of a storage: a component type that is not Sync is never accessible from two threads at once, one that is not Send is changed only on the thread that made the storage, and one that is neither is accessible on that thread only; a view that can change components is the only one but for those borrowed from it.", "quantifier": "all interleavings of borrows, clones, reborrows, iterations, drops and moves between threads, all four combinations of Send and Sync", "why_tests_cant": "data races depend on the schedule and on which values can be sent where", "anchors": ["src/advanced/atomic_refcell.rs", "src/sparse_set/window.rs: FullRawWindow, FullRawWindowMut", "src/borrow/non_send.rs", "src/borrow/non_sync.rs", "src/borrow/non_send_sync.rs"]}
{"id": "C68", "title": "Calls on tuples of views act on each of the views", "statement": "get, contains, add_component, add_distinct_component, add_entity, remove, delete, indexing and get_or_insert on a tuple of views do for each view what the call does for one: get and contains succeed exactly when the entity has all the components, removal and deletion take all of them, additions store all of them; an error or refusal changes nothing; components only read are not reported as modified; other storages and entities are untouched.", "quantifier": "all reachable worlds, all entities alive or dead, all tuples of distinct views, all presence patterns", "why_tests_cant": "presence patterns, tuples and histories are unbounded", "anchors": ["src/add_component.rs", "src/add_distinct_component.rs", "src/add_entity.rs", "src/contains.rs", "src/delete.rs", "src/remove.rs", "src/get.rs", "src/views/view_mut.rs", "src/entities/mod.rs"]}
{"id": "C69", "title": "Borrows never overlap, whatever threads do and in whatever order guards are dropped", "statement": "Over all interleavings of taking and dropping views, views of AllStorages, unique views, references to components and iterators: while an exclusive borrow of a storage is held nobody else holds any borrow of it, while AllStorages is held exclusively nobody else holds anything of the world, and no destructor touches storages that were freed.", "quantifier": "all interleavings of borrows, reborrows, drops (each destructor being several steps) and destructions of the storages through &mut AllStorages by any number of threads", "why_tests_cant": "the destructor of a guard is several steps and other threads run in between", "anchors": ["src/views/view.rs", "src/views/view_mut.rs", "src/views/entities.rs", "src/views/unique_view.rs", "src/advanced/get_component.rs: Ref, RefMut", "src/iter_component", "src/advanced/atomic_refcell.rs"]}
{"id": "C70", "title": "World::get gives the components that were asked for", "statement": "world.get::<(&A, &mut B, ..)>(id) succeeds exactly when the entity has all the components and no storage is held in a conflicting way, and gives each of them; an error names a missing component or a real conflict and leaves every storage as free as before, dropping the result does too; reading flags nothing, a write through the result changes and flags that component only, one inside RefMut::map flags nothing.", "quantifier": "all reachable worlds, all ids, all states of the borrows, all tuples of types and mutabilities, any order of reads and writes", "why_tests_cant": "presence patterns, borrow states and tuples are unbounded", "anchors": ["src/advanced/get_component.rs", "src/world.rs: get", "src/all_storages/mod.rs: get"]}
{"id": "C71", "title": "Lazily initialised uniques are initialised once and never pulled from under a view", "statement": "Through UniqueOrInitView(Mut) and UniqueOrDefaultView(Mut), whatever other threads do: get_or_init calls its closure exactly when the unique does not exist, stores what it returns and gives a view of it; when the unique exists it gives a view of that one or reports that it is borrowed; get, set and fetch say whether the view holds the unique; the default is stored exactly when the unique does not exist; views stay valid.", "quantifier": "all interleavings of the borrows and additions these calls are made of with calls of other threads and of the closures, all types, both mutabilities", "why_tests_cant": "the calls are several steps, and what runs in between is not bounded", "anchors": ["src/views/unique_or_init.rs", "src/views/unique_or_init_mut.rs", "src/views/unique_or_default.rs", "src/views/unique_or_default_mut.rs", "src/all_storages/mod.rs: add_unique"]}
{"id": "C72", "title": "A panic in user code leaves a storage usable and says what was done", "statement": "When a callback (on_insertion, on_removal), a closure given to retain, retain_mut, apply or apply_mut, the comparator of a sort or the destructor of a component panics and the panic is caught: an insertion whose callback panicked changed nothing; a removal or deletion whose callback panicked took the component away and nothing else; a sort changed nothing; clear left the storage empty; retain carried out the verdicts it was given, once per element, and kept the component during whose call the closure panicked; and every call made later, panicking or not, does what it would do on a storage that reached the same contents without panics, never reading out of bounds.", "quantifier": "all histories of calls in which any call may be ended by a panic of the user's code, all component types, any number of panics", "why_tests_cant": "the panic may come at any of the calls to user code inside any call, after any history", "anchors": ["src/sparse_set/mod.rs: insert, actual_remove, dyn_delete, dyn_remove, apply, apply_mut, retain, retain_mut, clear, sort_unstable_by", "src/sparse_set/bulk_add_entity.rs"]}
{"id": "C73", "title": "Panics and leftovers never make a world unusable or show an entity what is not its own", "statement": "Whatever calls a world went through, each finished or cut short by a panic in a callback or destructor that was caught, including the calls that leave components to dead entities: no later call reads out of bounds or refuses without reason; only ids that were handed out are alive or have components; add_entity gives a new id whose components are exactly those of the tuple up to the panic, never something left behind; add_component likewise, on top of what the entity had; delete_entity makes the entity dead even if cut short, never changes another alive entity, and once it returns no component is left; strip on the dead id removes what a cut delete_entity left; remove, delete, bulk_strip, retain_storage and clear change nothing beyond what they are about; a cut move_entity or move_components has no component in both worlds, has lost at most one and leaves the entities not moved alone; a cut clone_entity_to or clone_components_to has given clones of some of the types, each whole, and nothing else.", "quantifier": "all worlds reached by any sequence of calls, any call cut short by a panic in any callback or destructor it runs; all later calls with any panics", "why_tests_cant": "the panic may come in any storage and any call, after any history; what it leaves shows only in later calls", "anchors": ["src/all_storages/mod.rs: add_entity, add_component, delete_entity, strip, bulk_strip, retain_storage_by_id, clear, remove, delete_component, delete_any, spawn", "src/entities/mod.rs: delete_unchecked, clear", "src/sparse_set/add_component.rs", "src/sparse_set/remove.rs", "src/sparse_set/delete.rs"]}
{"id": "C74", "title": "Every storage is found under its id, made once, and lent by the rules of borrowing and of threads", "statement": "However threads interleave calls to custom_storage(_mut)_by_id, custom_storage_or_insert*, add_unique*, remove_unique, iter_storages and the dropping of guards: a storage is under one id, guards on it are one exclusive or several shared ones, a storage whose values cannot be sent (or shared) is only borrowed by the threads that may; each call returns a guard, an error or 'missing' exactly as the guards that exist, the threads and the types say; two threads that ask for a missing storage at the same time get the same storage and one initialiser is called; a storage stays the same until a call for that unique takes it out; if every id is used with one type and no user code panics, no call panics.", "quantifier": "all interleavings of calls by any number of threads, any number of guards, ids (types and custom), wrappers, with the standard or a custom lock", "why_tests_cant": "the answers depend on the guards other threads hold and on the race between the read and the write lock", "anchors": ["src/all_storages/custom_storage.rs: custom_storage_by_id, custom_storage_mut_by_id, custom_storage_or_insert_by_id and its non_send/non_sync/non_send_sync/_mut versions, iter_storages, iter_storages_mut", "src/all_storages/mod.rs: add_unique, add_unique_non_send, add_unique_non_sync, add_unique_non_send_sync, remove_unique", "src/storage/sbox.rs: SBox", "src/public_transport.rs: RwLock", "src/advanced/atomic_refcell.rs"]}
{"id": "C75", "title": "Conditions on storages say whether a component type or a unique is in use", "statement": "A system or workload with run_if_storage_empty::<T>() runs exactly when no entity has a T, whether or not the storage exists, and with skip_if_storage_empty::<T>() exactly when some entity has one; run_if_missing_unique::<T>() and skip_if_missing_unique::<T>() say the same of a unique; evaluating the condition changes neither entities, components, uniques nor what is borrowed.", "quantifier": "all worlds reached through the API, also after user panics, all component and unique types, all systems and workloads, all borrow states", "why_tests_cant": "it must hold after any history of insertions, removals and deletions, and for any views held elsewhere", "anchors": ["src/scheduler/system_modificator.rs: run_if_storage_empty, run_if_missing_unique, run_if_storage_empty_by_id, skip_if_storage_empty, skip_if_missing_unique, skip_if_storage_empty_by_id", "src/scheduler/workload_modificator.rs: run_if_storage_empty, skip_if_storage_empty", "src/scheduler/into_workload_run_if.rs", "src/all_storages/custom_storage.rs: custom_storage_by_id", "src/sparse_set/mod.rs: is_empty", "src/unique.rs: is_empty", "src/entities/mod.rs: is_empty", "src/world/run_batches.rs: run_batches_parallel"]}
{"id": "C76", "title": "The information about a workload describes its schedule", "statement": "The information returned for a workload has its name and one entry per batch; each batch lists exactly the systems that run in it, with their names, their accesses, the number of their function, the positions they must run after and the labels behind these constraints; a reported conflict is a real one, with a system of an earlier batch; the information of all workloads is kept under the labels of the workloads.", "quantifier": "all workloads made with the API, all worlds and histories of additions, defaults and renames", "why_tests_cant": "it must hold for every combination of accesses, labels, tags and barriers, and after any history of registrations", "anchors": ["src/scheduler/info.rs: WorkloadInfo, BatchInfo, SystemInfo, Conflict, BeforeAfterConstraint", "src/scheduler/workload/create_workload.rs: check_conflict, check_can_go_in_parallel_batch, propagate_implicit_hard_ordering, map_before_all_to_after, map_after_all_to_after, order_systems, create_workload", "src/scheduler/workload.rs: add_to_world", "src/world.rs: workloads_info"]}
{"id": "C77", "title": "Adding a workload enables the tracking of its views, for good", "statement": "When a workload was added to a world, every view of every one of its systems can be borrowed with its tracking type, at once and after any later calls on the world, successful, failing or panicking; no run of the workload fails because tracking is not enabled. Adding changes nothing else: entities, components, logs and callbacks stay, storages track at most what they tracked and what the systems ask for; when nothing is borrowed meanwhile tracking never makes the addition fail.", "quantifier": "all workloads, all systems made of views, all declared tracking flags, all worlds, all sequences of later calls, all other workloads added, renamed or refused before and after", "why_tests_cant": "it must hold for every later sequence of calls and every combination of tracking types and declared flags", "anchors": ["src/scheduler/workload.rs: add_to_world", "src/scheduler/workload/create_workload.rs: insert_systems_in_scheduler", "src/scheduler/into_workload_system.rs: into_workload_system", "src/sparse_set/mod.rs: enable_tracking", "src/borrow/borrow_info.rs: enable_tracking"]}
{"id": "C78", "title": "A workload built outside a world runs like an added one", "statement": "Workload::build accepts exactly the workloads a world accepts when the name is free, refuses the others with the same error and never panics; run_with_world on any world does what running the added workload would do; the information it returns is the one a new world keeps; after apply_tracking no run fails because tracking is not enabled, and apply_tracking fails only when AllStorages or one of the storages is borrowed.", "quantifier": "all workloads made with the API, all worlds, all histories of the world compared with", "why_tests_cant": "it must hold for every workload and every world", "anchors": ["src/scheduler/workload.rs: build, ScheduledWorkload::run_with_world, ScheduledWorkload::apply_tracking"]}
{"id": "C79", "title": "A workload does the same in every world", "statement": "Whether a workload is accepted, and with which error it is refused, does not depend on the workloads added before as long as its name is free; the order and the batches of its systems are those it gets alone in a new world; running it gives the same result in two worlds with different histories.", "quantifier": "all workloads made with the API, all pairs of histories of additions, defaults and renames, all worlds", "why_tests_cant": "it compares two histories of any length", "anchors": ["src/scheduler/workload/create_workload.rs: create_workload, insert_systems_in_scheduler, order_systems", "src/scheduler/mod.rs: Scheduler", "src/world.rs: run_workload"]}
{"id": "C80", "title": "Labels name workloads and systems consistently", "statement": "Comparing labels is an equivalence, which ignores boxes and the display names of systems and workloads; equal labels have equal hashes; a clone equals its original and is shown the same way; a map keyed by labels finds what was stored under any equal label and nothing else, with any hasher; the lists of before and after requirements hold every label once.", "quantifier": "all labels: texts of every type, values of user types, types, functions, workloads, sequential labels, boxes nested to any depth; all hashers; all sequences of insertions and removals", "why_tests_cant": "labels nest to any depth and the laws relate two or three of them", "anchors": ["src/scheduler/label.rs: Label, dyn_eq, dyn_hash, dyn_clone, as_any", "src/scheduler/info.rs: DedupedLabels", "shipyard_proc/src/label_expand.rs", "src/scheduler/workload/create_workload.rs: UniqueSystemId"]}
{"id": "C81", "title": "Identifiers of storages and descriptions of borrows are lawful keys", "statement": "StorageId and TypeInfo have an equality that is an equivalence, an order that is total and agrees with it, and a hash that agrees with it; comparing them with a TypeId or with a pair says the same as comparing with the identifier or description made from it; two descriptions are equal when storage and mutability are.", "quantifier": "all identifiers and descriptions, all pairs and triples of them", "why_tests_cant": "the laws of keys quantify over all triples", "anchors": ["src/storage/storage_id.rs: StorageId", "src/scheduler/info.rs: TypeInfo", "src/borrow/mod.rs: Mutability"]}
{"id": "C82", "title": "The memory a world reports is the memory its storages use", "statement": "A storage reports as many components as entities have one and as bytes in use exactly what its components, tracking data, logs and the pages of its table need; never more than allocated; the detailed report adds up to the short one; the table has the pages of exactly the entities components were ever given for. The list of a world has a line for every storage that can be read and counts the others.", "quantifier": "all histories of calls on a storage, all sizes and capacities, all sets of borrowed storages", "why_tests_cant": "it relates any history to a sum of bytes", "anchors": ["src/sparse_set/memory_usage.rs", "src/sparse_set/sparse_array.rs: used_memory, reserved_memory", "src/entities/mod.rs: memory_usage", "src/unique.rs: memory_usage", "src/all_storages/mod.rs: impl Debug for AllStoragesMemoryUsage", "src/world.rs: impl Debug for WorldMemoryUsage"]}
{"id": "C83", "title": "Systems running in parallel are told every change exactly once", "statement": "In any history of changes and workload runs, whatever the interleaving of the systems of a batch, a system or condition that asks whether a component was inserted or modified is told yes if and only if it was after the end of its own last run, or at all if it never ran. No change is missed and none is told twice.", "quantifier": "all worlds, workloads and schedulers, all programs within their views, all interleavings of their steps, all histories of changes outside workloads and runs with any result", "why_tests_cant": "systems of a batch take their times and access their storages in any interleaving", "anchors": ["src/scheduler/into_workload_system.rs: system_fn, last_run", "src/scheduler/into_workload_run_if.rs", "src/world.rs: get_current", "src/world/run_batches.rs", "src/advanced/tracking.rs: is_within"]}
{"id": "C84", "title": "Asking whether the uniques of a workload are present gives the exact answer", "statement": "Asking a workload whether its uniques are present in a world answers yes if and only if every system of the workload would be given all its views by that world. A no names the first missing unique: all systems before it would be served, its system would not. Asking changes nothing, and if all storages are held exclusively the answer says so.", "quantifier": "all worlds no view of which is held, all workloads, all lists of parameters of their systems", "why_tests_cant": "the answer is a prediction about borrows of any system with any parameters on any world", "anchors": ["src/scheduler/workload.rs: are_all_uniques_present_in_world, check_uniques_in_systems", "src/views/unique_or_default.rs", "src/views/unique_or_init.rs", "src/borrow/borrow_info.rs"]}
{"id": "C85", "title": "Systems that track changes cannot tell a parallel run from a sequential one", "statement": "Run a workload in parallel, in any interleaving, or run its systems one after the other in the order of its schedule: one succeeds if and only if the other does. If they succeed, every component has the same value, every system was told the same answers about insertions and modifications, and would now be told the same answers about every storage it views. This remains so for whole histories of runs and of changes made between them. The times themselves may differ.", "quantifier": "all histories of worlds, all workloads of systems that access what they declare, all interleavings, all components", "why_tests_cant": "every interleaving gives different times, and what a system is told depends on the times of all earlier runs", "anchors": ["src/world/run_batches.rs", "src/scheduler/into_workload_system.rs", "src/world.rs: get_current", "src/advanced/tracking.rs"]}
{"id": "C86", "title": "Iterating over a world yields what single lookups tell", "statement": "Iterate over views of the storages of a world that was used through its API: exactly those entities are yielded, each once, that `get`, `is_inserted` and `is_modified` on the views tell to match, with the components `get` gives. For a tuple of views these are the alive entities that have all the components according to `world.get`. No component is ever stored in a slot that belongs to another entity.", "quantifier": "all histories of worlds (including cloned storages and entities moved between worlds), all queries", "why_tests_cant": "which entities share an index, and so whether a component is inserted over that of another entity, depends on the whole history of the world", "anchors": ["src/iter/mod.rs", "src/iter/into_shiperator.rs", "src/iter/mixed.rs", "src/sparse_set/mod.rs: insert", "src/all_storages/mod.rs", "src/world.rs"]}
{"id": "C87", "title": "Custom storages follow their entities into other worlds", "statement": "A component storage can be added under an id of the user's choosing. `delete_entity`, `strip`, `clear` and `clone_storages_to` treat it like the other storages. `move_entity`, `move_components`, `clone_entity_to` and `clone_components_to` bring the components it holds into the storage with the same id of the other world; no component is lost on the way.", "quantifier": "all worlds, all assignments of custom ids to component types, all entities", "why_tests_cant": "whether two storages send their components to the same place depends on which ids were added and which entities have components in both", "anchors": ["src/all_storages/custom_storage.rs", "src/sparse_set/mod.rs: move_component_from, clone_component_to", "src/sparse_set/thread_local.rs", "src/all_storages/mod.rs: move_entity, move_components, clone_entity_to, clone_components_to"]}
{"id": "C88", "title": "Clones of storages start a history of their own", "statement": "`clone_storages_to`: tracking is not cloned, and the components count as inserted in the other world. So a cloned storage tracks what its component type declares, whatever tracking was turned on in the source; all its components are reported inserted, to views outside of workloads and to systems that ran before; none is reported modified, and nothing removed or deleted.", "quantifier": "all histories of the source world, all clone functions, all views and last runs in the other world", "why_tests_cant": "the flags of the clone depend on the history of the source and on the clock of the other world", "anchors": ["src/sparse_set/mod.rs: try_clone", "src/sparse_set/thread_local.rs: try_clone", "src/all_storages/mod.rs: clone_storages_to", "src/views/view.rs"]}
{"id": "C89", "title": "A window started at a timestamp holds what happened since", "statement": "Take a timestamp with `get_tracking_timestamp()`. A view on which the window is started there with `override_last_insertion`, `override_last_modification` or `override_last_removal_or_deletion` reports exactly the changes made by borrows that began since then, whatever its own last run was. As long as nothing changes, all runs that start their window at the same timestamp are told the same.", "quantifier": "all interleavings of any number of systems and other borrows, all moments at which the timestamp is taken", "why_tests_cant": "which changes fall into a window depends on the order in which all borrows of the program began", "anchors": ["src/views/view.rs: override_last_insertion, override_last_modification, override_last_removal_or_deletion", "src/views/view_mut.rs", "src/world.rs: get_tracking_timestamp, get_current", "src/advanced/tracking.rs: TrackingTimestamp::is_within"]}
{"id": "C90", "title": "par_strip does what bulk_strip does, in every schedule", "statement": "`par_strip(ids)` takes all components of the given entities and nothing else, and leaves them alive: the world it leaves, logs of deletions and timestamps included, is the one `bulk_strip(ids)` leaves, whatever the threads of the pool do first. If a callback or a destructor panics, each storage has lost the components of the first so many ids and no others, the entities are as alive as before and the world can be used on.", "quantifier": "all reachable worlds, all lists of ids, all interleavings of the tasks, all callbacks and destructors that panic", "why_tests_cant": "the schedule of the pool decides the order of the deletions, and which of them happen at all when one panics", "anchors": ["src/all_storages/mod.rs: par_strip, bulk_strip", "src/world.rs: par_strip", "src/sparse_set/mod.rs: Storage::delete"]}
{"id": "C91", "title": "A derived view borrows, declares, tracks and iterates exactly its fields", "statement": "A struct with `#[derive(Borrow, BorrowInfo, WorldBorrow, IntoIter)]` behaves as the tuple of the views in its fields, without those marked `default`: borrowing it succeeds exactly when all of them can be lent, holds each with its mutability, gives back everything on failure, and puts the default value in the marked fields. What it declares to the scheduler is exactly what it borrows; it turns on exactly the tracking its views ask for. As a parameter of a system it can stand for its views. Iterating it yields exactly the entities with all the components of the fields that are not skipped, once each, and each field of the item is the component of the view with that name.", "quantifier": "all structs, named or not, nested in any way in tuples, Options and other such structs, all attributes, all states of the world", "why_tests_cant": "the code is generated from the declaration, so that there is one function for every struct a user can write", "anchors": ["shipyard_proc/src/borrow_expand.rs: expand_borrow", "shipyard_proc/src/borrow_info_expand.rs: expand_borrow_info", "shipyard_proc/src/world_borrow_expand.rs: expand_world_borrow", "shipyard_proc/src/into_iter_expand.rs: expand_into_iter", "src/borrow/borrow_info.rs: BorrowInfo"]}
{"id": "C92", "title": "The condition of a nested workload decides for all its systems at once", "statement": "Putting a workload with a `run_if` condition inside another workload does not change what the condition decides: either all its systems are subject to a yes, or none of them runs, with the answer the condition gives when the run of the whole workload starts, as when the workload is run by itself.", "quantifier": "all workloads, nested to any depth in other workloads with any labels and further conditions, all conditions, worlds, parallel interleavings", "why_tests_cant": "the condition is copied to every system and asked again for each, at times that depend on the schedule, so every world in between matters", "anchors": ["src/scheduler/workload.rs: Workload::propagate, Workload::merge", "src/scheduler/into_workload_run_if.rs: IntoRunIf", "src/scheduler/workload_modificator.rs: WorkloadModificator::run_if"]}
{"id": "C93", "title": "Calls about workloads from several threads take effect one at a time", "statement": "Any threads (and any running systems) may add, rename, run, select or look up workloads of the same world at the same time. A call that changes workloads is refused, changing nothing, as long as any other such call or a run is in progress; otherwise it takes effect exactly once, in an order that agrees with time, with the answer it would have given alone. A running workload is the one that was registered when the run began until its run is over, and runs never refuse each other. Every call gives the workloads back, also when a system panics.", "quantifier": "all histories of calls of any number of threads, all interleavings of their steps, all workloads, all places where a system or condition panics", "why_tests_cant": "every interleaving of any number of calls, with runs of any length, and the claim is about all of them", "anchors": ["src/world.rs: World::run_workload, World::run_default_workload, World::set_default_workload, World::rename_workload, World::contains_workload", "src/scheduler/workload.rs: Workload::add_to_world", "src/advanced/atomic_refcell.rs: AtomicRefCell::borrow, AtomicRefCell::borrow_mut", "src/world/run_batches.rs: World::run_batches_sequential"]}
{"id": "C94", "title": "A panic in a parallel run reaches the caller and no later system runs", "statement": "When a system or a condition panics during a parallel run of a workload, the run panics in its caller, whatever else happened: it never returns. By then all systems that were started have come to their end, no system of a later group has been started, and each system that was started has done all that it does alone, up to its end, its error or its panic; the others have done nothing. A panic of the system that runs on the calling thread keeps no system of its group from running.", "quantifier": "all workloads, all systems and conditions, all places where they panic, all interleavings", "why_tests_cant": "any set of systems of a group may panic or fail at any access, in any interleaving", "anchors": ["src/world/run_batches.rs: World::run_batches_parallel", "src/world.rs: World::run_batches"]}
{"id": "C95", "title": "Calls on whole entities leave the right records in every storage", "statement": "When a call on entities deletes, removes or gives components, each storage concerned records it as what it is, for that entity only, once per component and at the time of the call in the world of that storage. add_entity and add_component record an insertion if the entity had no such component and a modification if it had one; delete_entity, strip, bulk_strip, retain_storage, delete_component and delete_any record a deletion, with the component; remove records a removal; moving an entity or its components to another world records removals here, at the time of this world, and insertions or modifications there, at the time of the other; cloning records them there only. What is recorded about other entities, and everything in the storages that are not concerned, stays as it is; on_insertion and on_removal are called once per component; views whose window holds the time of the call report it.", "quantifier": "all worlds reached by any history, all entities, all component lists, all combinations of tracked changes, all windows", "why_tests_cant": "the records depend on the history of every storage and on which changes each one tracks", "anchors": ["src/all_storages/mod.rs: add_component, delete_entity, strip, bulk_strip, retain_storage, remove, delete_component, delete_any, move_entity, move_components, clone_entity_to, clone_components_to", "src/sparse_set/mod.rs: insert, dyn_remove, dyn_delete, private_clear, move_component_from, clone_component_to"]}
{"id": "C96", "title": "A handle to a component marks it as modified exactly when it is used mutably", "statement": "Whatever a program does with the Mut or RefMut it gets for a component (reading it, taking mutable references, mapping it to a part any number of times, deciding by what it reads), the component ends up with the value the program would have left through a plain mutable reference. It is marked as modified, at the time of the view, exactly if the program took a mutable reference through the handle or through what it was mapped to; what the closures given to map change does not count. Nothing else in the storage changes, and later views report the component as modified exactly if it was marked and their window holds that time, and exactly as before otherwise.", "quantifier": "all programs with a handle, all values, all storages reached by any history, all views", "why_tests_cant": "programs with a handle are unbounded and depend on the values they read", "anchors": ["src/mut.rs: Mut, map, deref, deref_mut, as_ref, as_mut", "src/advanced/get_component.rs: RefMut, map, deref, deref_mut, as_ref, as_mut, get", "src/get.rs: get of &mut ViewMut"]}
{"id": "C97", "title": "The elements of a sequential tuple run one after the other", "statement": "The workload made by (e0, e1, ...).into_sequential_workload() holds the systems of the elements, in their order, with the same functions, views and conditions. It can be added, and every system of an element ends before any system of a later element starts, in the sequential order and in the parallel batches; systems inside one element are not ordered by the tuple. into_sequential_workload panics exactly when two of the systems have the same type.", "quantifier": "all tuples of workloads and systems, with any labels, conditions and barriers in them, added to any world", "why_tests_cant": "tuples nest without bound, and whether an order is respected depends on all the labels in the workload", "anchors": ["src/scheduler/into_workload.rs: into_sequential_workload of tuples", "src/scheduler/workload.rs: merge, propagate, append", "src/scheduler/workload/create_workload.rs"]}
{"id": "C98", "title": "A view of a storage given by its id is as good as the component's own view", "statement": "View::new_for_custom_storage and ViewMut::new_for_custom_storage give a view exactly when there is a storage under the id, the thread and the existing guards allow the borrow, and the storage holds components of that type. Otherwise the error says which of these is missing, and nothing stays borrowed. A view keeps the storage and AllStorages borrowed until it is dropped. Calls through it return the same and leave the same components as calls through any other view, and other views report the changes made through it.", "quantifier": "all histories of the storages of a world, threads, ids and types; all histories of a component storage, entities and values", "why_tests_cant": "the outcome depends on all the guards that other threads hold; whether a change is reported depends on the windows of views made later", "anchors": ["src/views/view.rs: View::new_for_custom_storage", "src/views/view_mut.rs: ViewMut::new_for_custom_storage", "src/error.rs: CustomStorageView"]}
{"id": "C99", "title": "run_workload(f) runs what add_workload(f) added", "statement": "world.add_workload(f) calls f and adds the workload it returns. When the user gave the workload a name, with Workload::new or rename, it is known by that name; otherwise run_workload(f) runs it, with its own systems by a schedule of it. add_workload panics exactly when the name is used or the workload cannot be built; the workloads under other names stay as they are.", "quantifier": "all histories of a world's workloads, all workloads made with the API, all functions", "why_tests_cant": "the name depends on every modifier the workload went through, and on the workloads added before", "anchors": ["src/scheduler/workload.rs: World::add_workload", "src/scheduler/into_workload.rs: IntoWorkload", "src/scheduler/into_workload_system.rs: label", "src/scheduler/label.rs: AsLabel", "src/world.rs: run_workload"]}
{"id": "C100", "title": "Worlds do not influence each other", "statement": "Whatever a program does with several worlds, in any interleaving: what the systems of a world are told about insertions and modifications depends only on what happened in that world, and is exactly what it would be if the world were alone. Exchanging the contents of two worlds (core::mem::swap through two AllStoragesViewMut) exchanges everything stored, and afterwards the systems of both worlds are told about every later change.", "quantifier": "all programs over any number of worlds, all interleavings of sessions of systems and other borrows in them, all exchanges", "why_tests_cant": "a shared or duplicated counter shows only in particular interleavings of particular numbers of borrows", "anchors": ["src/world.rs: World, Default, get_current", "src/all_storages/mod.rs: AllStorages, get_current, clear_all_inserted", "src/views/all_storages.rs: DerefMut"]}
{"id": "C101", "title": "Joint iteration walks the shortest storage", "statement": "Iterating over several storages at once picks the shortest of them (the first one among equals) and walks it: the entities come in the order that storage has them, and the upper bound of size_hint is its length, whatever stands beside it in the tuple.", "quantifier": "all tuples of views, views made optional, negated views and filters on flags, all contents and lengths of the storages, all roundings of the announced costs", "why_tests_cant": "the choice depends on the lengths of all members together; tests use a few fixed storages of nearby lengths", "anchors": ["guide/master/src/going-deeper/sparse-set.md: Iteration", "src/iter/into_shiperator.rs: into_shiperator of tuples", "src/iter/captain.rs: sail_time", "src/iter/captain/tracking.rs: sail_time", "src/iter/mod.rs: size_hint", "src/iter_component.rs: World::iter"]}
{"id": "C102", "title": "Turning tracking on at run time", "statement": "World::track_insertion, track_modification, track_deletion, track_removal and track_all turn the tracking they name on for each listed component type, making its storage if it has none, and change nothing else: components, their order, timestamps already kept, logs, callbacks, other component types, entities and the clock stay as they are. A component that was there before is reported for newly turned on tracking by no view, whatever its window; calls made afterwards are recorded with their time. Turning on what is on already does nothing.", "quantifier": "all reachable worlds, all tuples of component types (repeated or not, with or without a storage), the five calls, all entities, all windows of views", "why_tests_cant": "what a component shows afterwards depends on the whole history before the call and on the window of whoever looks; tests turn tracking on in an empty world", "anchors": ["src/world.rs: track_insertion, track_modification, track_deletion, track_removal, track_all", "src/all_storages/mod.rs: track_insertion, track_all", "src/advanced/tracking/tuple_track.rs: TupleTrack", "src/sparse_set/mod.rs: track_insertion, track_modification, track_deletion, track_removal, track_all"]}
{"id": "C103", "title": "Calls on entities leave uniques alone", "statement": "delete_entity, strip, bulk strip, retain_storage, move_entity, move_components, World::clear and clear_all_removed_and_deleted go over every storage of the world, in the order of a hash map, and still leave every unique as it was, value and timestamps; clear_all_inserted and clear_all_modified change only the time of insertion and of modification of a unique, which becomes that of the call. A storage implemented by the user is called exactly once for each entity and call, with the time of the call. Where the entities and the uniques are among the storages makes no difference to entities and components.", "quantifier": "all maps of storages in any order with any number of component storages, uniques and user storages, all programs of these calls, all implementations of Storage by the user", "why_tests_cant": "the order of the storages is that of a hash map and the kinds of storages are open-ended; a test sees one order", "anchors": ["src/all_storages/mod.rs: strip, bulk_strip, retain_storage_by_id, delete_entity, clear, clear_all_inserted, clear_all_modified, clear_all_inserted_and_modified, clear_all_removed_and_deleted, clear_all_removed_and_deleted_older_than_timestamp, move_entity, move_components", "src/storage/mod.rs: Storage", "src/unique.rs: UniqueStorage", "src/sparse_set/mod.rs: impl Storage for SparseSet", "src/entities/mod.rs: impl Storage for Entities"]}
{"id": "C104", "title": "clone_storages_to copies uniques, and leaves the rest of the other world", "statement": "After clone_storages_to the other world has a clone of every unique and of every component storage whose clone was registered, and of the entities; the clone of a unique has the cloned value and the time of the call as the time it was added, and was never modified. A unique or component storage whose clone was not registered, and whatever the other world has under an id the first world does not have, are in the other world as they were before. A storage implemented by the user decides for itself. The clones are not registered to be cloned again: a clone of the clone leaves them out.", "quantifier": "all pairs of maps of storages of any size and order, all clone functions, all ids", "why_tests_cant": "depends on which ids of two hash maps coincide and which clones were registered, in any combination", "anchors": ["src/all_storages/mod.rs: clone_storages_to", "src/unique.rs: try_clone, register_clone", "src/entities/mod.rs: try_clone", "src/sparse_set/mod.rs: try_clone", "src/storage/mod.rs: try_clone"]}
{"id": "C105", "title": "Uniques and entities do not depend on each other", "statement": "In any program of add_unique, add_unique_non_send and the like, remove_unique and calls on entities (delete_entity, strip, bulk strip, retain_storage, clear, clear_all_removed_and_deleted), entities and components end up as if the calls on uniques had not been made, and each unique has the value it would have without the calls on entities: the one last added and not removed since. remove_unique gives that value back, or an error if there is none; add_unique replaces an older value, add_unique_non_send, add_unique_non_sync and add_unique_non_send_sync keep it. Storages implemented by the user are not touched by calls on uniques.", "quantifier": "all programs, all maps of storages in any order, all ids of uniques, all values", "why_tests_cant": "needs every interleaving of two kinds of calls on one shared map", "anchors": ["src/all_storages/mod.rs: add_unique, add_unique_non_send, add_unique_non_sync, add_unique_non_send_sync, remove_unique, delete_entity, strip, bulk_strip, retain_storage_by_id, clear", "src/unique.rs: UniqueStorage", "src/storage/mod.rs: Storage"]}
