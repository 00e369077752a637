# Which functions of the code are modelled

Generated from the citations in `lean/Verif`. A function counts as modelled when a definition or a theorem cites lines of it.

1477 functions in `/repo/src` (tests left out), 687 cited.

| file | functions | cited | model modules |
|---|---|---|---|
| `add_component.rs` | 7 | 7 | CustomStorageView, Serde, Views |
| `add_distinct_component.rs` | 5 | 5 | Views |
| `add_entity.rs` | 4 | 3 | Views |
| `contains.rs` | 4 | 4 | Views |
| `delete.rs` | 4 | 4 | CustomStorageView, Views |
| `error.rs` | 51 | 0 | CreateWorkload, CustomStorageView, GetComponent, Register, RunBatches, StorageMap, Workload |
| `get.rs` | 5 | 5 | CustomStorageView, MutHandle, SparseSet, Views |
| `iter_component.rs` | 15 | 4 | Iter, IterNest |
| `lib.rs` | 1 | 0 | (none) |
| `memory_usage.rs` | 1 | 0 | Memory |
| `mut.rs` | 6 | 5 | MutHandle, SparseSet, Track, TrackedRun, Views |
| `not.rs` | 3 | 0 | Iter |
| `optional.rs` | 2 | 0 | Iter |
| `or.rs` | 5 | 0 | Iter |
| `public_transport.rs` | 16 | 3 | StorageMap |
| `remove.rs` | 4 | 4 | CustomStorageView, Views |
| `unique.rs` | 7 | 7 | Memory, Mixed, MixedClone, StorageCond, Tracking, Unique |
| `world.rs` | 67 | 19 | AddWorkload, BorrowViews, GetComponent, Guards, Memory, ParStrip, ParallelPanic, RunBatches, SchedulerShare, TrackOn, TrackedRun, Tracking, World, Worlds |
| `advanced/atomic_refcell.rs` | 19 | 8 | Borrow, BorrowViews, SchedulerShare, StorageMap, Threads, Unique |
| `advanced/get_component.rs` | 18 | 10 | GetComponent, Guards, MutHandle, World |
| `advanced/get_unique.rs` | 9 | 0 | (none) |
| `advanced/reserve.rs` | 14 | 1 | SparseSet |
| `advanced/tracking.rs` | 16 | 6 | SparseSet, Track, Tracking |
| `advanced/atomic_refcell/borrow_state.rs` | 12 | 11 | Borrow, StorageMap, WorldUnwind |
| `advanced/system/all_storages.rs` | 5 | 0 | (none) |
| `advanced/system/mod.rs` | 4 | 0 | (none) |
| `advanced/tracking/iterator_wrapper.rs` | 3 | 0 | Iter |
| `advanced/tracking/tuple_track.rs` | 10 | 10 | TrackOn |
| `all_storages/builder.rs` | 6 | 2 | StorageMap |
| `all_storages/clone.rs` | 10 | 1 | World |
| `all_storages/custom_storage.rs` | 40 | 26 | BorrowViews, CustomStorage, StorageCond, StorageMap, Unique, World |
| `all_storages/mod.rs` | 64 | 50 | BorrowViews, CustomStorage, GetComponent, Guards, Memory, Mixed, MixedClone, MixedUnique, ParStrip, Serde, StorageMap, TrackOn, TrackedRun, Tracking, Unique, World, WorldUnwind, Worlds |
| `all_storages/retain.rs` | 3 | 3 | World |
| `all_storages/delete_any/custom_delete_any.rs` | 2 | 1 | World |
| `all_storages/delete_any/mod.rs` | 2 | 1 | World, WorldUnwind |
| `borrow/borrow_info.rs` | 49 | 49 | CustomView, Register, UniquePresence, Workload |
| `borrow/mod.rs` | 23 | 23 | BorrowViews, CustomView, Guards, Ident, Register, StorageCond, StorageMap, Track, Tracking, Unique |
| `borrow/non_send.rs` | 4 | 0 | StorageMap |
| `borrow/non_send_sync.rs` | 4 | 0 | (none) |
| `borrow/non_sync.rs` | 4 | 0 | (none) |
| `borrow/world_borrow.rs` | 4 | 4 | BorrowViews, CustomView, Guards |
| `entities/iterator.rs` | 4 | 2 | Entities |
| `entities/mod.rs` | 19 | 17 | Entities, Memory, Mixed, MixedClone, StorageCond, Views, WorldUnwind |
| `entity_id/mod.rs` | 22 | 18 | EntityId, EntityIdBits, SparseSet |
| `entity_id/serde.rs` | 8 | 8 | EntityIdBits, Serde |
| `iter/captain.rs` | 30 | 13 | Iter, Track |
| `iter/into_shiperator.rs` | 30 | 7 | Iter |
| `iter/mixed.rs` | 9 | 8 | Iter, SailTime |
| `iter/mod.rs` | 7 | 5 | Iter |
| `iter/parallel.rs` | 4 | 1 | Iter |
| `iter/sailor.rs` | 18 | 13 | Iter, Track |
| `iter/with_id.rs` | 10 | 4 | Iter |
| `iter/captain/not.rs` | 15 | 3 | Iter, SailTime |
| `iter/captain/or.rs` | 5 | 3 | Iter |
| `iter/captain/tracking.rs` | 5 | 1 | Iter, SailTime |
| `iter/into_shiperator/not.rs` | 18 | 2 | Iter |
| `iter/into_shiperator/or.rs` | 3 | 2 | Iter |
| `iter/into_shiperator/tracking.rs` | 9 | 1 | Iter |
| `iter/sailor/not.rs` | 24 | 2 | Iter |
| `iter/sailor/or.rs` | 3 | 2 | Iter |
| `iter/sailor/tracking.rs` | 18 | 2 | Iter |
| `iter_component/iter_ref.rs` | 2 | 1 | Guards, Iter, IterNest |
| `scheduler/batches.rs` | 2 | 0 | CreateWorkload |
| `scheduler/info.rs` | 21 | 19 | CreateWorkload, Ident, Label, Workload |
| `scheduler/into_workload.rs` | 6 | 4 | Workload |
| `scheduler/into_workload_run_if.rs` | 5 | 2 | Register, StorageCond, TrackedRun, Workload |
| `scheduler/into_workload_system.rs` | 9 | 3 | AddWorkload, BorrowViews, CustomView, Register, TrackedRun, Tracking, UniquePresence, Workload, Worlds |
| `scheduler/into_workload_try_system.rs` | 8 | 0 | Workload |
| `scheduler/label.rs` | 36 | 12 | AddWorkload, Label, Workload |
| `scheduler/mod.rs` | 8 | 7 | CreateWorkload, SchedulerShare |
| `scheduler/system.rs` | 6 | 1 | Workload |
| `scheduler/system_modificator.rs` | 33 | 15 | StorageCond, Workload |
| `scheduler/workload.rs` | 16 | 14 | AddWorkload, CreateWorkload, Register, SchedulerShare, Track, UniquePresence, Workload |
| `scheduler/workload_modificator.rs` | 24 | 12 | StorageCond, Workload |
| `scheduler/workload/create_workload.rs` | 26 | 26 | CreateWorkload, Label, Register, Workload |
| `sparse_set/add_component.rs` | 5 | 5 | CustomStorageView, Serde, Views, World, WorldUnwind |
| `sparse_set/bulk_add_entity.rs` | 6 | 2 | SparseSet, Unwind, World |
| `sparse_set/delete.rs` | 2 | 1 | CustomStorageView, Views, World, WorldUnwind |
| `sparse_set/drain.rs` | 3 | 2 | SparseSet |
| `sparse_set/memory_usage.rs` | 6 | 4 | Memory |
| `sparse_set/mod.rs` | 64 | 46 | CustomStorage, EntityId, LocalStorage, Mixed, MixedClone, SparseSet, StorageCond, Track, TrackOn, TrackedRun, Unwind, World, WorldUnwind |
| `sparse_set/remove.rs` | 2 | 1 | CustomStorageView, Views, World, WorldUnwind |
| `sparse_set/sparse_array.rs` | 12 | 9 | Memory, SparseArray |
| `sparse_set/thread_local.rs` | 36 | 10 | CustomStorage, LocalStorage, StorageCond |
| `sparse_set/window.rs` | 21 | 11 | Iter, Threads |
| `storage/mod.rs` | 17 | 15 | Memory, Mixed, World |
| `storage/sbox.rs` | 6 | 5 | StorageMap, Unique |
| `storage/storage_id.rs` | 7 | 0 | Ident, StorageMap |
| `storage/sbox/builder.rs` | 4 | 0 | (none) |
| `track/all.rs` | 8 | 1 | Tracking |
| `track/deletion.rs` | 5 | 0 | (none) |
| `track/deletion_removal.rs` | 6 | 0 | (none) |
| `track/insertion.rs` | 2 | 0 | (none) |
| `track/insertion_deletion.rs` | 6 | 0 | (none) |
| `track/insertion_deletion_removal.rs` | 7 | 0 | (none) |
| `track/insertion_modification.rs` | 3 | 0 | (none) |
| `track/insertion_modification_deletion.rs` | 7 | 0 | (none) |
| `track/insertion_modification_removal.rs` | 7 | 0 | (none) |
| `track/insertion_removal.rs` | 6 | 0 | (none) |
| `track/modification.rs` | 2 | 0 | (none) |
| `track/modification_deletion.rs` | 6 | 0 | (none) |
| `track/modification_deletion_removal.rs` | 7 | 0 | (none) |
| `track/modification_removal.rs` | 6 | 0 | Track |
| `track/nothing.rs` | 1 | 0 | (none) |
| `track/removal.rs` | 5 | 0 | (none) |
| `unique/thread_local.rs` | 15 | 3 | Memory |
| `views/all_storages.rs` | 7 | 1 | Guards, Worlds |
| `views/entities.rs` | 4 | 0 | Guards |
| `views/unique_or_default.rs` | 4 | 2 | Serde, Unique, UniqueOrInit, UniquePresence |
| `views/unique_or_default_mut.rs` | 5 | 1 | Serde, Unique, UniqueOrInit, UniquePresence |
| `views/unique_or_init.rs` | 7 | 6 | UniqueOrInit, UniquePresence |
| `views/unique_or_init_mut.rs` | 8 | 1 | Serde, UniqueOrInit, UniquePresence |
| `views/unique_view.rs` | 9 | 4 | Guards, Tracking, Unique |
| `views/unique_view_mut.rs` | 23 | 7 | Guards, Tracking, Unique |
| `views/view.rs` | 22 | 16 | CustomStorageView, Guards, Track, TrackedRun, Tracking, Views |
| `views/view_mut.rs` | 49 | 8 | CustomStorageView, Guards, Serde, Threads, Track, Tracking, Views |
| `views/serde/de/entities_mut.rs` | 6 | 3 | Serde |
| `views/serde/de/unique_mut.rs` | 4 | 1 | Serde |
| `views/serde/de/unique_or_default_mut.rs` | 4 | 3 | Serde, Unique, UniquePresence |
| `views/serde/de/unique_or_init_mut.rs` | 4 | 1 | Serde, UniquePresence |
| `views/serde/de/view_mut.rs` | 10 | 5 | Serde |
| `views/serde/ser/entities.rs` | 1 | 1 | Serde |
| `views/serde/ser/entities_mut.rs` | 1 | 0 | Serde |
| `views/serde/ser/unique.rs` | 1 | 0 | Memory, Mixed, MixedClone, Serde, StorageCond, Tracking, Unique |
| `views/serde/ser/unique_mut.rs` | 1 | 0 | Serde |
| `views/serde/ser/unique_or_default.rs` | 1 | 0 | Serde, UniquePresence |
| `views/serde/ser/unique_or_default_mut.rs` | 1 | 0 | Serde, Unique, UniquePresence |
| `views/serde/ser/unique_or_init.rs` | 1 | 0 | Serde, UniquePresence |
| `views/serde/ser/unique_or_init_mut.rs` | 1 | 0 | Serde, UniquePresence |
| `views/serde/ser/view.rs` | 4 | 2 | Serde |
| `views/serde/ser/view_mut.rs` | 4 | 0 | Serde |
| `world/builder.rs` | 7 | 1 | Threads |
| `world/run_batches.rs` | 3 | 3 | ParallelPanic, RunBatches, SchedulerShare, StorageCond |

## Functions without a definition of their own

### Projections and tuple cases

- `add_entity.rs`: add_entity
- `mut.rs`: fmt

### Error values and their text; the model has one constructor per error that a property mentions

- `error.rs`: fmt ×36, from_custom ×4, eq ×5, custom_error ×2, from ×4

### `get_captain_data`, `is_exact_sized`, `can_captain` ... of the wrappers repeat those of the plain views; Model/Iter has them as equations of functions on `Qry` and `Ship`. Rayon plumbing is modelled as splitting (C35)

- `iter_component.rs`: into_shiperator ×11
- `iter/captain.rs`: next_slice ×6, unpick ×6, is_exact_sized ×3, get_captain_data ×2
- `iter/into_shiperator.rs`: par_iter, can_sailor ×8, into_shiperator ×7, can_captain ×7
- `iter/mixed.rs`: clone
- `iter/mod.rs`: len ×2
- `iter/parallel.rs`: fold_with, drive_unindexed, opt_len
- `iter/sailor.rs`: index_from_usize ×5
- `iter/with_id.rs`: with_id, ids, size_hint, len, split, fold_with
- `iter/captain/not.rs`: get_captain_data ×3, next_slice ×3, is_exact_sized ×3, unpick ×3
- `iter/captain/or.rs`: get_captain_data, is_exact_sized
- `iter/captain/tracking.rs`: get_captain_data, next_slice, is_exact_sized, unpick
- `iter/into_shiperator/not.rs`: into_shiperator ×5, can_sailor ×6, can_captain ×5
- `iter/into_shiperator/or.rs`: can_sailor
- `iter/into_shiperator/tracking.rs`: into_shiperator ×3, can_sailor ×3, can_captain ×2
- `iter/sailor/not.rs`: get_sailor_data ×8, indices_of ×7, index_from_usize ×7
- `iter/sailor/or.rs`: index_from_usize
- `iter/sailor/tracking.rs`: get_sailor_data ×6, indices_of ×5, index_from_usize ×5
- `iter_component/iter_ref.rs`: into_iter

### The default thread id generator; thread ids are arbitrary numbers in Model/Threads

- `lib.rs`: std_thread_id_generator

### Text of the `Debug` output; the numbers are modelled (Model/Memory)

- `memory_usage.rs`: fmt
- `sparse_set/memory_usage.rs`: fmt ×2

### Operators that only wrap their arguments; the wrapped query is a constructor of `Qry` (Model/Iter)

- `not.rs`: not ×3
- `optional.rs`: as_optional ×2
- `or.rs`: bitor ×4, from

### The readers-writer lock of `AllStorages`, modelled as an abstract lock (Model/StorageMap)

- `public_transport.rs`: deref ×2, drop, deref_mut, new_custom, new_std, get_mut, new ×2, lock_shared, unlock_shared, lock_exclusive, unlock_exclusive

### One line delegations to `AllStorages`, which is modelled; builders that only store their arguments

- `world.rs`: clone, new, remove_local_thread_pool, add_unique, add_unique_non_send, add_unique_non_sync, add_unique_non_send_sync, remove_unique, sys1 ×2, run_with_data, run, all_storages, all_storages_mut, add_custom_storage, add_entity, bulk_add_entity, add_component, delete_component, remove, delete_entity, strip, bulk_strip, delete_any, retain_storage, retain_storage_by_id, clear, clear_all_removed_and_deleted, clear_all_removed_and_deleted_older_than_timestamp, clear_all_inserted, clear_all_modified, clear_all_inserted_and_modified, spawn, retain, retain_mut, memory_usage, get_unique, iter, on_deletion, is_entity_alive, move_entity, move_components, register_clone, clone_entity_to, clone_components_to, fmt, serialize, deserialize
- `world/builder.rs`: builder ×3, with_custom_lock, with_local_thread_pool, build

### Projections and constructors of the cell; the borrow state and the checks on threads are modelled (Model/Borrow, Model/Threads)

- `advanced/atomic_refcell.rs`: into_inner, is_send, is_sync, override_send_sync, get_mut, destructure ×2, map ×2, deref, deref_mut
- `advanced/atomic_refcell/borrow_state.rs`: cold_check_overflow

### The cases for `NonSend`, `NonSync`, `NonSendSync` repeat the plain case; handles are Model/MutHandle

- `advanced/get_component.rs`: map, as_ref, get ×6
- `advanced/get_unique.rs`: get_unique ×9

### Adaptors over a slice of ids

- `advanced/reserve.rs`: as_slice, next, size_hint, fold, nth, last, count, next_back, rfold, len, bulk_reserve ×3
- `entities/iterator.rs`: next, size_hint

### The sixteen tracking kinds repeat the same functions; Model/Track has them once, with the kind as an argument. `clear_all_removed_and_deleted*` of `track/*.rs` have no caller

- `advanced/tracking.rs`: is_modified, is_deleted, is_removed, removed_or_deleted, clear_all_removed_and_deleted_older_than_timestamp, map_deletion_data, new, origin, get, is_older_than
- `advanced/tracking/iterator_wrapper.rs`: not ×3
- `track/all.rs`: name, is_modified, is_deleted, is_removed, removed_or_deleted, clear_all_removed_and_deleted, clear_all_removed_and_deleted_older_than_timestamp
- `track/deletion.rs`: name, is_deleted, removed_or_deleted, clear_all_removed_and_deleted, clear_all_removed_and_deleted_older_than_timestamp
- `track/deletion_removal.rs`: name, is_deleted, is_removed, removed_or_deleted, clear_all_removed_and_deleted, clear_all_removed_and_deleted_older_than_timestamp
- `track/insertion.rs`: name, is_inserted
- `track/insertion_deletion.rs`: name, is_inserted, is_deleted, removed_or_deleted, clear_all_removed_and_deleted, clear_all_removed_and_deleted_older_than_timestamp
- `track/insertion_deletion_removal.rs`: name, is_inserted, is_deleted, is_removed, removed_or_deleted, clear_all_removed_and_deleted, clear_all_removed_and_deleted_older_than_timestamp
- `track/insertion_modification.rs`: name, is_inserted, is_modified
- `track/insertion_modification_deletion.rs`: name, is_inserted, is_modified, is_deleted, removed_or_deleted, clear_all_removed_and_deleted, clear_all_removed_and_deleted_older_than_timestamp
- `track/insertion_modification_removal.rs`: name, is_inserted, is_modified, is_removed, removed_or_deleted, clear_all_removed_and_deleted, clear_all_removed_and_deleted_older_than_timestamp
- `track/insertion_removal.rs`: name, is_inserted, is_removed, removed_or_deleted, clear_all_removed_and_deleted, clear_all_removed_and_deleted_older_than_timestamp
- `track/modification.rs`: name, is_modified
- `track/modification_deletion.rs`: name, is_modified, is_deleted, removed_or_deleted, clear_all_removed_and_deleted, clear_all_removed_and_deleted_older_than_timestamp
- `track/modification_deletion_removal.rs`: name, is_modified, is_deleted, is_removed, removed_or_deleted, clear_all_removed_and_deleted, clear_all_removed_and_deleted_older_than_timestamp
- `track/modification_removal.rs`: name, is_modified, is_removed, removed_or_deleted, clear_all_removed_and_deleted, clear_all_removed_and_deleted_older_than_timestamp
- `track/nothing.rs`: name
- `track/removal.rs`: name, is_removed, removed_or_deleted, clear_all_removed_and_deleted, clear_all_removed_and_deleted_older_than_timestamp

### `run` borrows the views in order and calls the function: Model/BorrowViews, Model/Register; `run_with_data` passes one more argument

- `advanced/system/all_storages.rs`: run ×5
- `advanced/system/mod.rs`: run ×4

### Construction of an empty map of storages, boxes

- `all_storages/builder.rs`: new ×3, with_custom_lock
- `storage/sbox.rs`: fmt
- `storage/sbox/builder.rs`: new ×2, build ×2

### Copies for `NonSend`, `NonSync`, `NonSendSync` and for `&mut`, tuples calling the function for each element, delegations

- `all_storages/clone.rs`: register_clone ×9
- `all_storages/custom_storage.rs`: custom_storage_or_insert_non_sync, custom_storage_or_insert_non_sync_by_id, custom_storage_or_insert_non_send_sync, custom_storage_or_insert_non_send_sync_by_id, custom_storage_or_insert_mut, custom_storage_or_insert_mut_by_id, custom_storage_or_insert_non_send_mut, custom_storage_or_insert_non_send_mut_by_id, custom_storage_or_insert_non_sync_mut, custom_storage_or_insert_non_sync_mut_by_id, custom_storage_or_insert_non_send_sync_mut, custom_storage_or_insert_non_send_sync_mut_by_id, iter_storages, iter_storages_mut
- `all_storages/mod.rs`: run_with_data, sys1, run, exclusive_storage_mut, exclusive_storage_mut_by_id, exclusive_storage_or_insert_non_send_mut, exclusive_storage_or_insert_non_sync_mut, exclusive_storage_or_insert_non_send_sync_mut, memory_usage, get_unique, iter, on_deletion, register_clone, fmt

### Tuple and custom storage cases calling the modelled one

- `all_storages/delete_any/custom_delete_any.rs`: delete_any
- `all_storages/delete_any/mod.rs`: delete_any

### Copies of the plain implementations for `NonSend`, `NonSync`, `NonSendSync`; what differs is modelled (`C88_local_fails`, Model/Threads)

- `borrow/non_send.rs`: as_ref, as_mut, deref, deref_mut
- `borrow/non_send_sync.rs`: as_ref, as_mut, deref, deref_mut
- `borrow/non_sync.rs`: as_ref, as_mut, deref, deref_mut
- `sparse_set/thread_local.rs`: delete ×3, clear ×3, sparse_array ×3, memory_usage ×3, clear_all_inserted ×3, clear_all_modified ×3, clear_all_removed_and_deleted ×3, clear_all_removed_and_deleted_older_than_timestamp ×3, is_empty ×2
- `unique/thread_local.rs`: is_empty ×3, clear_all_inserted ×3, clear_all_modified ×3, try_clone ×3

### Projections, tests, `Debug`

- `entities/mod.rs`: iter, clone_component_to
- `entity_id/mod.rs`: default, uindex, max_gen, fmt

### Trait plumbing (boxing, cloning, hashing, `Debug`), modifiers of plain functions that make the system and call the modelled modifier, `try` systems (same code with the error kept)

- `scheduler/batches.rs`: fmt, eq
- `scheduler/info.rs`: fmt, new
- `scheduler/into_workload.rs`: into_workload, into_sequential_workload
- `scheduler/into_workload_run_if.rs`: into_workload_run_if ×3
- `scheduler/into_workload_system.rs`: into_workload_system ×2, call ×3, label
- `scheduler/into_workload_try_system.rs`: into_workload_try_system ×8
- `scheduler/label.rs`: as_any, dyn_hash ×6, dyn_clone ×6, dyn_debug ×6, clone, hash, eq, fmt, as_label
- `scheduler/mod.rs`: fmt
- `scheduler/system.rs`: run, clone ×2, to_non_clone ×2
- `scheduler/system_modificator.rs`: run_if ×2, skip_if ×2, before_all ×2, after_all ×2, display_name ×2, tag ×2, require_in_workload ×2, require_before ×2, require_after ×2
- `scheduler/workload.rs`: with_try_system ×2
- `scheduler/workload_modificator.rs`: run_if_storage_empty, run_if_missing_unique, run_if_storage_empty_by_id, skip_if_storage_empty, skip_if_missing_unique, skip_if_storage_empty_by_id, run_if, skip_if, before_all, after_all, rename, tag

### Projections, tuple cases and delegations

- `sparse_set/bulk_add_entity.rs`: bulk_add_entity, bulk_insert ×3
- `sparse_set/delete.rs`: delete
- `sparse_set/drain.rs`: with_id
- `sparse_set/mod.rs`: fmt, as_slice, len, index_of_unchecked, id_at, take_on_insertion, take_on_removal, assert_inserted, is_tracking_insertion, is_tracking_modification, is_tracking_deletion, is_tracking_removal, is_tracking_any, reserve, sort_unstable, sparse_array, memory_usage, is_empty
- `sparse_set/remove.rs`: remove
- `sparse_set/sparse_array.rs`: len, as_ptr, as_mut_ptr
- `sparse_set/window.rs`: from_view_mut, len ×2, entity_iter ×2, clone ×2, new ×2, new_owned

### Default methods of the trait, conversions

- `storage/mod.rs`: as_any, as_any_mut
- `storage/storage_id.rs`: of, from ×2, eq, partial_cmp, default, fmt

### `deref`, `clone`, copies for each tracking kind, delegations to the storage or the unique

- `views/all_storages.rs`: clone, deref ×2, as_ref ×2, as_mut
- `views/entities.rs`: deref ×2, clone, deref_mut
- `views/unique_or_default.rs`: deref, enable_tracking
- `views/unique_or_default_mut.rs`: deref, deref_mut, borrow_info, enable_tracking
- `views/unique_or_init.rs`: enable_tracking
- `views/unique_or_init_mut.rs`: get, get_mut, set, fetch, get_or_init, borrow_info, enable_tracking
- `views/unique_view.rs`: clone, override_last_insertion, override_last_modification, as_ref, fmt
- `views/unique_view_mut.rs`: is_inserted_or_modified, clear_inserted_and_modified ×4, override_last_insertion, override_last_modification, register_clone, as_ref, fmt, clear_inserted ×3, clear_modified ×3
- `views/view.rs`: inserted, inserted_or_modified, deref, as_ref, clone, fmt
- `views/view_mut.rs`: as_view, override_last_insertion, override_last_modification, override_last_removal_or_deletion, clear, drain, apply, apply_mut, retain, retain_mut, get_or_default, get_or_insert, inserted, inserted_mut, clear_all_inserted ×4, modified, modified_mut, clear_all_modified ×4, is_inserted_or_modified, inserted_or_modified, inserted_or_modified_mut, clear_all_inserted_and_modified ×4, is_deleted, deleted, is_removed, removed, deref, deref_mut, as_ref, as_mut ×2, fmt

### Constructors of the (de)serializers; the formats are modelled in Model/Serde

- `views/serde/de/entities_mut.rs`: new, deserialize, deserialize_in_place
- `views/serde/de/unique_mut.rs`: new, deserialize, deserialize_in_place
- `views/serde/de/unique_or_default_mut.rs`: new
- `views/serde/de/unique_or_init_mut.rs`: new, deserialize, deserialize_in_place
- `views/serde/de/view_mut.rs`: new, override_component, type_names, deserialize, deserialize_in_place
- `views/serde/ser/entities_mut.rs`: serialize
- `views/serde/ser/unique.rs`: serialize
- `views/serde/ser/unique_mut.rs`: serialize
- `views/serde/ser/unique_or_default.rs`: serialize
- `views/serde/ser/unique_or_default_mut.rs`: serialize
- `views/serde/ser/unique_or_init.rs`: serialize
- `views/serde/ser/unique_or_init_mut.rs`: serialize
- `views/serde/ser/view.rs`: new, type_names
- `views/serde/ser/view_mut.rs`: new, type_names, serialize ×2

## Not modelled at all

- `visualizer`, `bunny_demo`, `square_eater`, `guide`, `benches`, `tests`.
- `shipyard_proc`: only what the derives of views generate (Model/CustomView, C91); `derive(Component)`, `derive(Unique)` and `derive(Label)` generate constants and delegations.
- Layout, alignment, capacity and allocation failure of vectors and boxes.
- Rayon's splitting policy and work stealing (any splitting and any order is allowed in the model), weak memory orderings (atomics are sequentially consistent).
- Wrap-around of the 64-bit timestamp counter and of `usize` counters, except for entity ids (C01).
- `Debug` and `Display` text.
