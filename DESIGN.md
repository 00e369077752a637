# Formal model of shipyard: design

The code in `/repo` (leudz/shipyard, pinned commit) is read as text and modelled in
Lean 4 under `lean/Verif`. Nothing is run or extracted: the tie between code and
model is the citation (file and lines) carried by every definition of the model.

## Layout

| directory | content |
|---|---|
| `lean/Verif/Model/*.lean` | executable model, one definition per Rust function, each citing the lines it models and the simplifications made |
| `lean/Verif/Spec/*.lean`  | small specifications written in the vocabulary of the properties, independent of the model's helpers |
| `lean/Verif/Lemmas/*.lean`| invariants and helper lemmas |
| `lean/Verif/Props/*.lean` | the property theorems (named `C07_...`), each with an `example` showing that a concrete non-trivial case meets its hypotheses, and the negations (`..._fails`) where the code violates the English property |

## Conventions of the model

- `&mut self` functions return the new value. Loops are folds, structural
  recursion, or recursion with explicit fuel that is proved sufficient.
- A panic is `Except.error .panic`; an out-of-bounds `get_unchecked` is
  `Except.error .oob` (undefined behaviour in Rust). No `head!`, `getD` or
  default value stands for a rejected input.
- `usize`, `u64` counters are `Nat` unless the property is about their width.
  Entity ids are modelled twice: as 64-bit words with the code's masks and
  shifts (`Model/EntityIdBits`) and as (index, generation) pairs
  (`Model/EntityId`); a refinement theorem relates every operation of the two.
- Component values, labels and storage types are arbitrary types (parameters).
- Timestamps are `Nat` (the code uses a 64-bit counter; wrap-around after
  2^64 borrows is not modelled).

## Trusted base

- Lean 4.33.0's kernel.
- Axioms: at most `propext`, `Classical.choice`, `Quot.sound` (checked with
  `#print axioms` over every property theorem; the list is in `AXIOMS.txt`).
- The faithfulness of the reading of the Rust source, including the semantics
  given to `Vec` (`push`, `swap_remove`, `resize`, `drain`, ...), `HashMap`
  (a finite map), the standard sort (`permutation::sort_unstable`-like
  behaviour), `rayon` (each spawned closure runs once, in any order, and is
  joined) and sequentially consistent atomics.
- No axioms of our own, no `sorry`, no `native_decide`, no `bv_decide`.

## What is modelled and what is not

`COVERAGE.md`, generated from the citations, lists every source file with the model
modules that cite it and every function that has no definition of its own, with
the reason. In short:

| part of the code | model modules |
|---|---|
| `entity_id`, `entities` | EntityIdBits, EntityId, Ident, Entities |
| `sparse_set` (storage, index table, sort, drain, bulk, window, memory) | SparseArray, SparseSet, LocalStorage, Memory, Views |
| `tracking`, `track`, `mut`, tracking views, systems that track | Tracking, Track, MutHandle, TrackedRun |
| `all_storages`, `world` (entities, components, uniques, move, clone, delete, strip, retain) | World, CustomStorage, ParStrip, StorageMap, Unique, UniqueOrInit, UniquePresence |
| panics in user code | Unwind, WorldUnwind, ParallelPanic |
| `atomic_refcell`, `borrow`, `views`, guards, threads | Borrow, BorrowViews, BorrowRace, Guards, Threads, CustomView |
| `iter`, `iter_component`, `get`, `not`, `or`, `optional` | Iter, GetComponent |
| `scheduler`, `world/run_batches` | Workload, CreateWorkload, RunBatches, SchedulerShare, StorageCond, Register, Label |
| `views/serde`, `entity_id/serde` | Serde |
| `shipyard_proc` (derived views only) | CustomView |

Code that occurs several times with the same text is modelled once: the sixteen
tracking kinds (an argument), the `NonSend`/`NonSync`/`NonSendSync` copies (flags
of the storage), tuples of each length (lists), `World` methods that only call
the `AllStorages` method of the same name.

Not modelled: the text of errors and `Debug`, builders that only store their
arguments, boxing and downcasting where the type is known, vector capacities
except in the memory properties, allocation failure, Rayon's splitting policy (any splitting
and any order is allowed), weak memory orderings, wrap-around of the 64-bit
timestamp counter, the visualizer and the demos.

## Plan per property

- **C01 EntityId packs index and generation losslessly.** `EntityIdBits` on `BitVec 64`; bit-level lemmas, round trip and injectivity.
- **C02 EntityId serialization round-trips.** Same module: encoders/decoders of `entity_id/serde.rs` on the word model; round trip.
- **C03 Entity ids are never handed out twice.** `Entities` model; operations as a step relation over histories; invariant (free list is a duplicate-free chain of dead slots, per-slot generation bounds all ids issued from it). Freshness against the set of all ids issued so far. The code violates it when a slot's generation is exhausted and the store is cleared (witness).
- **C04 is_alive tracks exactly the added and not yet deleted entities.** Refinement of the `Entities` model to a set of alive ids. False at generation 65533 (deletion fails to bump): reachable witness, and a `_partial` theorem below the limit.
- **C05 Iterating Entities yields exactly the alive ids.** From the invariant: iteration list equals the strictly increasing list of alive ids.
- **C06 The entity free list never corrupts memory.** All `get_unchecked`/index accesses are explicit `oob` errors; the invariant shows none is reachable; witness of `oob` after `clear` with an exhausted slot.
- **C07 Slots are recycled before new ones are allocated.** Refinement of the list to a FIFO queue; slot counting invariant.
- **C08 bulk_add_entity creates one fresh entity per component in order.** `bulk_add_entity` with an iterator modelled as (hint, items); full statement for exact hints, negation for a short hint.
- **C09 spawn makes exactly the requested id alive.** Case analysis over the position in the free list; `_partial` for slots in the list; negations for resurrecting a deleted id.
- **C10 clear kills every entity and keeps ids unique.** `clear` loop; `_partial` for non exhausted slots with callbacks restricted; negations (callback called for already dead slots, duplicated id, out of bounds).
- **C11 on_deletion is called exactly once per deleted entity.** The callback is a log appended by `delete_unchecked`; induction over histories.
- **C12 A component storage behaves like a map from entity to component.** `SparseSet` model (sparse table, dense, data and timestamp arrays); refinement to `index -> Option (gen, component, timestamps)`.
- **C13 A stale handle never touches a newer entity's component.** Corollaries of the refinement for each operation.
- **C14 The paged sparse array is a plain index lookup.** `SparseArray` of optional pages of 32; simulation by the flat table.
- **C15 Removing a component returns it once and affects no other entity.** Refinement of `actual_remove` (row map minus one key).
- **C16 Removal and deletion logs are exact.** Logs are part of the state; induction over histories against the spec log.
- **C17 clear_all_removed_and_deleted empties both logs.** False: only the removal log is cleared. Negation and `_partial`.
- **C18 Sorting a storage permutes whole rows.** `sort_unstable_by` with the cycle walk; permutation of rows and sortedness, for every sorted permutation the sort may return.
- **C19 retain keeps exactly the components satisfying the predicate.** Loop with index and swap_remove; proved by induction on the remaining length.
- **C20 drain and clear empty the storage and hand out each component once.** `private_drain`/`private_clear`; drain iterator as pointer pair; drop at any point.
- **C21 Removal callbacks fire once per component leaving the storage.** Callback logs; false for clear/drain (negation); `_partial` for insert/remove/delete/retain.
- **C22 apply and apply_mut act on precisely the two named entities.** Model of `private_apply(_mut)` with split at the larger index.
- **C23 Inserted and modified are reported exactly once per run of a workload system.** Protocol model of the timestamp counter, system runs and writes; exactly-once for atomic runs; negations for failed runs and for interleaved timestamp acquisition.
- **C24 inserted / modified flags of each component are exact.** Refinement of the timestamp arrays; the flags stated from the history of writes.
- **C25 Clearing tracking through a view hides exactly the past.** Counter protocol with the view's own timestamp.
- **C26 World::clear_all_inserted / clear_all_modified hide exactly the past.** False (off by one, and unique storages set the wrong field): negations and `_partial`.
- **C27 clear_all_removed_and_deleted_older_than keeps exactly the younger entries.** Filter of the logs; statement over all storages.
- **C28 Unique storages report insertion and modification exactly.** `UniqueStorage` and its views; induction over access histories.
- **C29 Joint iteration yields exactly the entities having all components.** Shiperator model (captain slice + sailors). `Exactly st q items`: the items are the matching entities, each once, with their items. Proved by induction on the query: what a member sees at an entity is what the query means there (`Sees`), the slices of the captain are the matching candidates (`Cap`).
- **C30 Not and optional views filter as documented.** Not/Optional sailors in the same model.
- **C31 Or iteration yields each entity of the union once.** `|` as a captain with two slices; exact for fold and rfold; `next`/`next_back` when the second storage is not empty; negations for the empty one, nested `|`, ids and `!` inside.
- **C32 Tracking filters select exactly the flagged components.** Tracking filter as sailor/captain with timestamps; equality with filter.
- **C33 with_id pairs each component with its own entity.** next, fold and rfold with ids against the list of (entity, item); negations for `next_back` and fold over `|`.
- **C34 An iterator consumed from both ends visits each item once.** Calls on the iterator refine calls on the list of its items (`pulls`).
- **C35 Parallel splits partition the iteration.** Any tree of splits, the concatenation of the parts is the fold.
- **C36 size_hint bounds are correct.** size_hint model against the list of remaining items.
- **C37 Runtime borrows are mutually exclusive.** Interleaving semantics of the atomic word; invariant relating word and multiset of guards.
- **C38 Failed borrows leave no permanent trace.** Same machine; quiescence implies word = 0; a borrow fails only if a conflicting guard or a pending one exists.
- **C39 Borrowing several views is all or nothing.** Sequential composition with rollback through drops.
- **C40 delete_entity removes the entity and all its components, and nothing else.** World model: entities + family of storages; refinement to alive set and component maps.
- **C41 Components belong to alive entities.** Invariant over world histories; negations for the paths that break it.
- **C42 strip and retain keep exactly the requested storages.** World model, storage selection as predicate.
- **C43 add_component on a dead entity is rejected without effect.** World model; error branch leaves state unchanged.
- **C44 remove and delete_component act on every listed component.** Short-circuit `||` makes it false: negation, `_partial`.
- **C45 delete_any deletes exactly the entities having one of the components.** World model: collect, clear, delete each.
- **C46 move_entity transfers the entity with all its components.** Two-world model; success path; negation for the panic path.
- **C47 Cloning into another world preserves the registered components.** Two-world model.
- **C48 A unique is single and survives until removed.** Map of storages keyed by id.
- **C49 Workload building schedules every system exactly once.** Model of `order_systems` (Kahn with soft and hard constraints); permutation invariants.
- **C50 Systems of one parallel batch never conflict.** `check_conflict`; invariant of the batch under construction.
- **C51 Explicit ordering constraints are respected.** Invariant: a system is extracted only after all of its hard predecessors were placed, in an earlier batch. A relation (Said) between a workload and what was said about each of its systems, for every way to build workloads, links the constraints to the calls that made them (C51 to C55).
- **C52 Unconstrained conflicting systems run in insertion order.** Soft ordering invariant.
- **C53 Building fails with a cycle iff the constraints are cyclic.** Termination of the loop with leftovers iff no system is free; equivalence with a cycle in the constraint graph.
- **C54 Presence and ordering requirements are checked exactly.** Model of the three checks; `check_require_after` is wrong (negation).
- **C55 Merging and appending workloads preserves systems and their constraints.** Model of workload values; algebraic laws; negations for append.
- **C56 Parallel execution of a built workload equals sequential execution.** Footprint semantics of systems; commutation inside batches; negation with run_if.
- **C57 Running a workload on an idle world never fails to borrow.** Combination of the borrow machine with batches; negation through the incomplete validity check.
- **C58 Invalid systems are rejected at creation.** Model of the half-and-half comparison: false for three views (negation), `_partial`.
- **C59 run_if conditions gate systems and compose by conjunction.** Evaluation semantics of conditions; a relation (Under) between a workload and the conditions of each of its systems, for every way to build workloads; induction on it.
- **C60 A failing system stops the workload with its own error.** Model of run_batches sequential and parallel (any schedule).
- **C61 Workload names are managed consistently.** Model of the scheduler maps.
- **C62 Serialized storages round-trip.** `Model/Serde`: what serializers write is a document (numbers, names, sequences, structs), formats differ in being human readable, giving structs back as sequences and needing lengths. Decoders are the code's visitors, including duplicate, missing and unknown fields. Reading a view is shown to be a sequence of insertions, then the storage specification gives the component map; entities by induction over the increasing ids given to `spawn`; worlds by combining both. `C62_with_id` ties the encoder to the model of iteration.
- **C63 A unique view stays valid while it is held.** Memory model of unique boxes (addresses, borrow counters, freeing); refinement for polite programs; negation by the add_unique over a held view.
- **C64 Removals and deletions are reported exactly once per workload run.** Same protocol model as C23, over the removal and deletion logs.
- **C65 A component type tracks what it declares.** The sixteen track types with their constants and traits, the derive macro as a parser of words; storages with histories of C07. Case analysis on the types, log lemmas for removals and deletions; negation for (Modification, Removal).
- **C66 Tracking turned on at run time reports exactly the later changes.** Histories with the events that turn tracking on; views with the run-time check. Invariants of C24 applied from the moment of the switch; loops over `&mut view` as folds refining single writes; negations for untracked view types over tracked storages and for a replaced storage.
- **C67 Components stay on the threads their type allows.** The borrow state of C37 with tokens: guards and iterators, where they are, what they are and what they borrow from; sending a token is allowed as the auto traits and the unsafe impl Send say. Invariant over all interleavings; negation for iterators over a Send and not Sync component.
- **C68 Calls on tuples of views act on each of the views.** Calls on lists of storages of a reachable world, one timestamp per view; each call proved by induction on the tuple from one lemma per storage call (insert, delete, remove, write, find). Negation for add_distinct_component.
- **C69 Borrows never overlap, whatever threads do and in whatever order guards are dropped.** Borrow cells of C37 with tokens for everything that holds borrows; destructors are two steps in field order, parents outlive children, destruction of the storages frees them. Invariant over all interleavings when destructors are not interrupted; negations for the destructor of views (all_borrow is dropped first) and for references copied out of Ref.
- **C70 World::get gives the components that were asked for.** getOne, getEach over the cells of C39 beside a reachable world; the cells move as for borrowing a tuple of views that are refused when the component is missing, so that C39 applies. A handle is a position in a storage; writes through it are the writes of views; a write in map is a write at the time the component already has.
- **C71 Lazily initialised uniques are initialised once and never pulled from under a view.** The calls cut into steps at each borrow and each addition, run on the memory of C63 and on its specification; refinement for all interleavings in which nothing is added to a unique in use (C71_partial), what every call made in one go shows after any such program (C71_open, C71_get_or_init_new, _there, C71_filled, C71_fetch, C71_set, C71_default, C71_close); negation by two threads, by set, and by a closure that uses its own view.
- **C72 A panic in user code leaves a storage usable and says what was done.** Interruptible versions of the functions that call user code (Model/Unwind.lean), which return the storage as the unwinding leaves it; a specification of what an interrupted call leaves (Spec/Unwind.lean); refinement by induction over all histories mixing finished and interrupted calls (C72_reads_partial, C72_total_partial), one theorem per call in terms of get and iteration, agreement with the uninterrupted calls (C72_returned); negations with witnesses.
- **C73 Panics and leftovers never make a world unusable or show an entity what is not its own.** Interruptible versions of the functions of AllStorages (Model/WorldUnwind.lean); the worlds reached by finished and cut calls with the ids handed out (Spec/WorldUnwind.lean); one invariant proved by induction over these histories: entity store sound, each storage represents a table, every row belongs to an id handed out (Lemmas/WorldUnwind.lean); per call a theorem in terms of get and is_entity_alive for every choice of panics; agreement with the ordinary calls when nothing panics (C73_calm); negations with witnesses. Moves and clones between two such worlds: Model/WorldUnwind.lean (`moveEntityU` …), Props/MoveUnwind.lean.
- **C74 Every storage is found under its id, made once, and lent by the rules of borrowing and of threads.** Map of ids to boxes, heap of boxes with borrow counts, list of guards, threads waiting for the write lock (Model/StorageMap.lean); one invariant tying counts to guards, ids to boxes and threads to wrappers, by induction over histories (Lemmas/StorageMap.lean); each call characterised in terms of guards (Lemmas/StorageMapUse.lean, Props/StorageMap.lean); typed histories do not panic; negations with witnesses. add_unique while the unique is viewed is left out here, C63 shows what it does.
- **C75 Conditions on storages say whether a component type or a unique is in use.** Condition as a step on a world together with the borrow state of its cells (Model/StorageCond.lean); on an idle world the borrow of AllStoragesViewMut, of the storage and both drops compose to the identity, and is_empty is tied to the table of the storage (Lemmas/StorageCond.lean); combined with C59 and C61 for systems and workloads (Props/StorageCond.lean); negations.
- **C76 The information about a workload describes its schedule.** The fields that only end up in the information are part of the model of create_workload; order_systems keeps a report in step with the batches (Lemmas/Report.lean); descriptions are related to systems with a separate specification (Spec/WorkloadInfo.lean, Lemmas/WorkloadInfo.lean); numbers of functions, the map of informations and histories in Props/WorkloadInfo.lean; negations by workloads of two to five systems.
- **C77 Adding a workload enables the tracking of its views, for good.** Systems are functions of a list of views which take a timestamp, borrow and then run (Model/Register.lean); a relation Call lists every call on a world including those that panic (Spec/Register.lean) and none clears a flag (Lemmas/Register.lean); runs by C61 and induction on the jobs (Props/Register.lean).
- **C78 A workload built outside a world runs like an added one.** build modelled with its own scheduler (Model/Register.lean); same order by C79; tracking by C77's lemmas (Props/Build.lean).
- **C79 A workload does the same in every world.** Every pass of create_workload commutes with forgetting the numbers of functions (Lemmas/Isolate.lean); the simulation of C61 carries the order (Lemmas/Registry.lean); Props/Build.lean.
- **C80 Labels name workloads and systems consistently.** Labels as a tree with boxes (Model/Label.lean); equality, hash and clone against a relation SameLabel; a map of buckets for any hasher; the abstract labels of the scheduler model are shown to be the classes of equal labels (Props/Label.lean).
- **C81 Identifiers of storages and descriptions of borrows are lawful keys.** The derived and written impls (Model/Ident.lean) against a structure LawfulKey (Props/Ident.lean).
- **C82 The memory a world reports is the memory its storages use.** Byte counts over the storage model (Model/Memory.lean), the pages followed through every call (Lemmas/Memory.lean), the rest by the abstraction of C07 and C37 (Props/Memory.lean).
- **C83 Systems running in parallel are told every change exactly once.** A world with a clock, the times of the last runs, the times of changes and a log of what happened (Model/TrackedRun.lean); systems as steps, interleaved as in C56; an invariant on times per phase of every running system (Lemmas/TrackedRun.lean); statements about the log only (Props/TrackedRun.lean).
- **C84 Asking whether the uniques of a workload are present gives the exact answer.** The check by names of types and ids of storages (Model/UniquePresence.lean), the borrows of the parameters as in C39 and C57; a yes gives every system its views through the invariant of C57, a successful borrow only has present uniques by induction on the parameters (Props/UniquePresence.lean).
- **C85 Systems that track changes cannot tell a parallel run from a sequential one.** A world without a clock: values, how often each place was written, and for each system and condition what it was told and how often each place had been written when its last run ended; every step of the world of C83 is a step of it (Pool.step in Lemmas/TrackedRun.lean), the systems and conditions are then disciplined as in C56 with one private place for each, whose theorem is applied; the same for the sequential run (Lemmas/TrackedSame.lean).
- **C86 Iterating over a world yields what single lookups tell.** Lives (Spec/Lives.lean): how a storage may come to be. The invariant of reachable worlds (Lemmas/World.lean) carries the life of each storage; the theorems of C29 are about all storages that live. The specification of the result (Spec/WorldIter.lean: seen) uses single lookups only.
- **C87 Custom storages follow their entities into other worlds.** World (Model/World.lean) with arbitrary ids; Model/CustomStorage.lean: the loops of move_* and clone_* with the id of the ordinary storage of the type, which is what they insert into. Exact theorem for all assignments of ids to types, refutation of the claim, and the part that holds.
- **C88 Clones of storages start a history of their own.** World (Model/World.lean: cloneSto, cloneStoragesTo), cloneLocal (Model/LocalStorage.lean) for the storages of thread-bound components, which have their own try_clone. The specification (CountsInserted) uses get, is_inserted, is_modified, removed and deleted of any view of the clone.
- **C89 A window started at a timestamp holds what happened since.** The programs of C23 (Spec/Tracking.lean). The moment splits the program; the specification counts sessions that began after it (Since).
- **C90 par_strip does what bulk_strip does, in every schedule.** Model/ParStrip.lean: one task per storage, small steps, rayon's behaviour on panics as an option to leave out tasks that have not begun. Invariant per storage: what the task has done and has to do makes up the list of ids.
- **C91 A derived view borrows, declares, tracks and iterates exactly its fields.** Model/CustomView.lean: the declaration as a tree, the generated functions as functions of it. By induction over the tree the struct is related to a request for a tuple of Model/BorrowViews; Spec/Lend.lean says when such a request is granted.
- **C92 The condition of a nested workload decides for all its systems at once.** Spec/Nested.lean: a condition with its answer frozen at the start; ways to nest a workload. A relation between the two workloads (same systems, conditions that do the same as long as nothing the condition reads was changed) is kept by merge and by every step of a run. The general claim is refuted by concrete runs.
- **C93 Calls about workloads from several threads take effect one at a time.** Model/SchedulerShare.lean: calls cut into the atomic operations on the word of the scheduler's cell and steps on its content (each looks the workload up again, so a content that changed under a run would show). Invariant: the guards of the cell are the calls in progress; the content is what the recorded changes make of it; a call in progress has seen all recorded changes.
- **C94 A panic in a parallel run reaches the caller and no later system runs.** Model/ParallelPanic.lean: a panic is one more way for a system or a condition to stop; the steps of a batch are those of C56 and C60; the end of the scope is modelled after rayon's in_place_scope. The theorems transfer the results about parallel runs and add what is left by each system of the group (the invariant of C56 for unfinished batches).
- **C95 Calls on whole entities leave the right records in every storage.** Spec/WorldReports.lean says what one storage shows before and after a deletion, a removal, an insertion or modification, and a clear, without reference to a table. Lemmas/WorldReports.lean derives them from the invariant of C41 storage by storage, Props/WorldReports.lean states them per call and then in terms of what views report.
- **C96 A handle to a component marks it as modified exactly when it is used mutably.** Programs are trees of uses of a handle (Model/MutHandle.lean), run on a place and a timestamp. Spec/MutHandle.lean says what the same program leaves through a plain reference and whether it takes a mutable reference. C96_run by induction on programs; C96_storage through the table of C12.
- **C97 The elements of a sequential tuple run one after the other.** The loop over the elements is modelled with the tags it adds; loop_systems gives every system of the result exactly. Consecutive elements are ordered by C51; C97_in_order_partial chains them. C97_functions: with different functions all constraints go forward, so C53 gives that the workload can be added.
- **C98 A view of a storage given by its id is as good as the component's own view.** The call is custom_storage_by_id of the model of C74 followed by the check of the type; grab_unguard shows that dropping the guard brings back the state. The calls through the view are those of the storage with timestamp 0: C12 gives the data, C24 and C16 what is reported.
- **C99 run_workload(f) runs what add_workload(f) added.** The naming step of add_workload is modelled as written; GivenName is a specification by induction over the modifiers. The rest is C61 for the workload with that name, whose systems and barriers are unchanged.
- **C100 Worlds do not influence each other.** Counters are references into a list, as Arc<AtomicU64> is; a world and its AllStorages each hold one. Invariant over all programs without exchanges: both halves of the i-th world hold the i-th counter, and its acts are a program of a world that is alone. Then C23 applies.
- **C101 Joint iteration walks the shortest storage.** The loop that chooses the captain returns the first member with the least announced cost among those that can be captains, by induction over the members. The cost of a view is its length, so that the choice is the first shortest view; what is yielded is a filter of its dense array.
- **C102 Turning tracking on at run time.** The call on one storage is a step of the storage specification (C06), which gives what observe shows; the calls for a tuple compose by induction over the tuple, a repeated type by idempotence. What follows is C95 in the resulting world, which is reachable.
- **C103 Calls on entities leave uniques alone.** The map is a list of storages of four kinds, each call a loop asking every storage for its method of the trait. By induction over the list each loop does to components and entities what the world of the other theorems does (Shows), and to uniques and user storages what Beside says; programs by induction.
- **C104 clone_storages_to copies uniques, and leaves the rest of the other world.** The loop inserts in the other map, which is a map by keys; by induction over the first map each id is looked up in the result.
- **C105 Uniques and entities do not depend on each other.** Calls on entities by C103; the calls on uniques change one entry of the map, which is no component storage because ids belong to types (Typed, an invariant). Induction over the program.

## Findings

Places where the code as written violates a property a user would expect. `..._fails` is the theorem
exhibiting it; where no theorem is named, the item was found by reading.

### Entities
- E1 `delete_unchecked`/`delete_entity` of an id of generation >= 65533 returns true and the id stays alive (`C04_fails`).
- E2 `spawn` of an id of generation 65535 on a dead slot overflows (`C09_dead_generation_fails`).
- E3 `Entities::clear` calls `on_deletion` for dead slots with ids never handed out, re-links exhausted slots (duplicate ids, out of bounds) and panics when every slot is exhausted (`C10_callback_fails`, `C10_duplicate_fails`, `C06_fails`, `C06_clear_panics_fails`).
- E4 `bulk_add_entity` with an iterator whose lower size hint is short drops a component (`C08_fails`); E5 the same for `()`.
- E6 `EntityId::from_inner` and the binary decoder accept words that are not ids (`C01_...`, `C02_binary_decoder_unvalidated_fails`).

### Storages
- S1 inserting over the component of an older entity of the same index ORs the generations (`copy_index_gen`): the dense array holds a wrong id (`C16_fails`, `C19_fails`), the modification stamp is not reset (`C24_takeover_fails`). Consequences: loops over several views miss the entity (`C29_takeover_fails`), `!view` yields entities that have the component (`C30_takeover_fails`), `inserted()` and `|` skip it (`C32_takeover_fails`, `C31_takeover_fails`), `with_id` gives another entity's id (`C33_takeover_fails`), so does `drain` (`C20_fails`); when the two generations OR to 65535 the stored id is the dead one, which every empty place of the other storages matches: loops over several views then read out of bounds (`C29_takeover_oob_fails`).
- S1b removing through the id of a newer entity loses the component left of an older one (`C15_older_fails`).
- S2 `SparseSet::clear_all_removed_and_deleted` clears only the removals (`C17_fails`).
- S3 an id of generation 65535 matches an empty allocated slot and reads out of bounds.
- S4 `bulk_insert` of an empty iterator panics; of a tuple, stamps the insertion 0 (`C24_bulk_tuple_fails`); `on_insertion` is not called.
- S5 `clear` and `drain` do not call `on_removal` (`C21_fails`).
- S6 the tuple `delete` short-circuits with `||`.
- S7 `clear_all_removed_and_deleted_older_than(t)` drops entries with timestamp exactly `t` (`C27_fails`).

### Tracking and uniques
- T1 a workload system whose borrow fails has already advanced its last run (`C23_failed_run_fails`).
- T2 the timestamp is acquired before the storage is borrowed (`C23_race_fails`).
- T3 `track::ModificationAndRemoval::VALUE` is `0b10 & 0b1010`: `#[track(Modification, Removal)]` never tracks removals (`C65_fails`).
- T3b `#[derive(Component)]` reads only the first `#[track(..)]` of a component and skips words in quotes or parentheses, all without an error (`C65_second_attribute_fails`, `C65_skipped_fails`).
- T4 iterating over `&mut ViewMut<T>` whose type does not track modification, on a storage whose modification tracking was turned on at run time, writes without being reported; `get`, indexing and `apply` are reported, and `World::iter` panics in this case (`C66_iter_mut_fails`).
- T5 the assertion that a view type tracks at least what the component declares is in `View::new` only, not in the borrow of `ViewMut`, so T4 needs no run-time switch.
- T6 `ViewMut: DerefMut<Target = SparseSet>` lets safe code replace the storage under a view, which defeats the run-time check of tracking: `inserted()` then reads out of bounds (`C66_replace_fails`).
- T7 views made by `new_for_custom_storage` have the window (0, 0] and report nothing.
- U1 `UniqueStorage::clear_all_inserted`/`clear_all_modified` write the wrong field (`C26_unique_fails`).
- U2 `World::clear_all_*` uses the current counter without consuming it (`C26_fails`).
- V1 `add_unique(&self)` over an existing unique frees its box even while views of it are held: use after free from safe code, and two exclusive views (`C63_fails`, `C63_two_exclusive_fails`). `UniqueOrInitView::set` does the same.

### Borrowing
- N1 two shared views of a `Send + !Sync` storage in one batch refuse each other (`C57_non_sync_fails`).
- N2 a system with a `()` parameter (`C57_unit_fails`).
- N3 with a local thread pool batches run on a pool thread, so systems with `NonSend` views fail with `WrongThread`.

### Scheduler
- W1 the `after` field is not read; W2 `Extend` (`C53_extend_fails`); W3 `require_after` with its own tag (`C54_require_after_fails`), W15 (`C54_require_before_fails`).
- W6 capturing closures are identified by type (`C49_sequential_fails`).
- W7 `into_sequential_workload` adds no effective constraint (`C51_into_sequential_fails`); W8 an empty workload in the middle of a sequential tuple breaks the chain, the elements around it run at the same time (`C97_empty_element_fails`); W12 elements are told apart by the label of their type and every modified system has the type `WorkloadSystem`: a sequential tuple of three modified systems is a cycle (`C97_modified_systems_fails`).
- W9 `append` loses barriers and conditions (`C55_append_*_fails`), `rename` overwrites (`C61_rename_overwrites_fails`), a failed add leaves systems behind (`C61_failed_add_leaves_systems_fails`), W14 the emptied argument of `append` panics (`C51_append_leftover_fails`).
- W10 views of `run_if` are not part of conflict detection (`C56_condition_fails`); W11 `run_if` views are only half checked (`C58_run_if_fails`).
- W9c a barrier in a nested workload also separates the systems of the workloads around it, so a workload with a barrier that is to run before one added earlier cannot be scheduled (`C55_barrier_outside_fails`).
- W9b what is nested with `with_workload` or `merge` after `run_if` is not under that condition, nor is anything added after such a nesting (`C59_nested_after_run_if_fails`).
- W13 (`C53_explicit_only_fails`); W16 `rename` does not update `workloads_info`; W17 an error names the system by the first registration of its function (`C60_name_fails`).

### Iteration
- I1 `next` and `next_back` enter an empty second slice of `a | b` without looking at its length: out of bounds read, underflow (`C31_next_fails`, `C31_next_back_fails`).
- I2 `RawEntityIdAccess::split_at` does not advance the pointer of the right half when a follow-up is cut. Not reachable: iterators with `|` are not `Clone`. Proved as `C35_split_at_fails`; only the lengths are right, `C35_split_lengths`.
- I3 `WithId::next_back` reads the id at `end + 1` instead of `end` (`C33_next_back_fails`, `C33_next_back_wrong_id_fails`).
- I4 `WithId::fold` does not call `next_slice`: with `a | b` entities of both are yielded twice, even with exclusive views, those of `b` only are missed (`C33_or_fold_fails`).
- I5 `a | (b | c)` never yields the entities having `c` only (`C31_nested_fails`).
- I6 `World::iter` takes the number of components for the number of pages: entities are missed, pages are read out of bounds (`C29_world_iter_fails`, `C29_world_iter_oob_fails`).
- I7 the tracking filters read out of bounds on storages that do not track (`C32_untracked_fails`).
- I8 `a | ids` inside a tuple matches every entity (`C31_ids_fails`); I9 `a | !b` depends on the driving storage (`C31_not_inside_fails`).
- I10 the sail time of `!&mut view` is `usize::MAX`. The sum that a nested tuple with two of them announces overflows, and so does the one of `&a | !&mut b` inside a tuple when `a` is not empty: building the iterator panics in a debug build (`C30_exclusive_fails`, `C31_exclusive_fails`). `Sails` excludes these queries, and holds of all others with the `f32` arithmetic of the code (`C29_sails`).
- I11 a filter on flags (`view.inserted()`, ...) announces twice the length of its storage (`src/iter/captain/tracking.rs:19-21`), so that a tuple can walk a longer view, where the guide (`guide/master/src/going-deeper/sparse-set.md:84`) says that the shortest set is picked (`C101_flag_fails`). Harmless: the entities are the same.
- I12 a nested tuple announces the length of its driver and half the lengths of its other members (`src/iter/mixed.rs:54-65`): `(b, (a, b))` with `a` shorter than `b` can walk `b` (`C101_nested_fails`). Harmless too.
- `Mixed::is_exact_sized` is never true for two members or more. The second panic check of tuple building cannot be reached.
- With `a | b`, `next_back` walks each storage from its own back, first storage first (`C34_or_order_fails`).

### Worlds
- M1 `move_entity` deletes the entity before `other.spawn(e)` is asserted: when the other world refuses the id the call panics, the entity is lost in both worlds and its components stay in the first one (`C46_move_refused_fails`, `C41_move_refused_fails`).
- M2 `spawn` over an alive entity of a lower generation kills it without deleting its components (`C41_spawn_fails`); so do `move_entity` and `clone_entity_to` (`C46_move_over_alive_fails`). Over the same id they merge the components of both (`C46_move_merges_fails`, `C47_clone_entity_merges_fails`).
- M3 `delete_component::<(A, B)>` stops at the first component it finds (`C44_delete_component_fails`, S6).
- M4 `retain_storage::<()>` removes nothing, `retain_storage_by_id(e, &[])` everything (`C42_retain_nothing_fails`).
- M5 `AllStorages::retain` panics when the storage was never made (`C42_retain_missing_storage_fails`).
- M6 `strip`, `remove`, `retain_storage` given an id of another world with a higher generation take the components of the entity alive at that index (`C42_foreign_id_fails`).
- M7 `clone_storages_to` replaces the entities of the other world but not the storages it cannot clone: their components belong to dead entities (`C41_clone_storages_fails`). The clone has no clone functions: a clone of the clone has no components (`C47_clone_of_clone_fails`).
- M8 `delete_entity` and `delete_any` of an entity of generation 65533 or 65534 leave it alive (`C40_exhausted_fails`, E1).

### Tuples of views
- Q1 `entities.add_distinct_component` of a tuple joins its calls with `||`: once one component is added the following ones are dropped (`C68_add_distinct_fails`). `delete` of a tuple of views uses `|` and deletes all.
- Q2 `entities.add_component_unchecked` and `add_component` of views drop the result of the insertion: a refused insertion goes unnoticed, where `World::add_component` asserts. With an alive entity it is never refused (`C68_add_component`).
- Q3 `get_or_insert` does not ask whether the entity is alive: for a dead id it stores a component nobody owns (`C68_get_or_insert_dead`).

### Threads
- H1 `unsafe impl<T: Send + Component> Send for FullRawWindow<'_, T>` should ask for `T: Sync`: it gives `&T`. `NonSync<View<T>>::iter()` of a component such as `Cell<u32>` can be sent to a scoped thread while the view is used: a data race in safe code (`C67_iter_fails`).
- H2 `WorldBuilder::with_custom_thread_id` is a safe function, and its documentation passes `|| 0`: every check of threads then succeeds, and a component that is neither `Send` nor `Sync` is reached from two threads (`C67_custom_ids_fails`).

### Guards
- G1 `View`, `ViewMut`, `Ref`, `RefMut` and `IntoIterRef` declare `all_borrow` before `borrow`, so their destructor gives `AllStorages` back before the storage. In between another thread can take `AllStoragesViewMut`, swap the storages into another world and drop it; the second half of the destructor then writes to freed memory (`C69_fails`). `UniqueView(Mut)` and `EntitiesView(Mut)` declare the fields the other way round.
- G2 `World::get::<&T>` gives a `Ref<'a, &'a T>` that dereferences to `&'a T`: `let r: &T = *world.get::<&T>(id)?;` outlives the borrow, and `world.get::<&mut T>(id)` then gives `&mut T` to the same component, in safe code (`C69_escape_fails`). The same with `RefMut::map` moving the `&'a mut T` out (`C69_escape_mut_fails`).

### Lazy uniques
- L1 `get_or_init`, and borrowing a `UniqueOrDefaultView(Mut)`, look whether the unique exists and add it later, without a lock in between: two threads both add it, the second `add_unique` frees the value the first one views. Both declare a shared view, so the scheduler runs two such systems at the same time (`C71_race_fails`).
- L2 `UniqueOrInitView(Mut)::set` only looks at its own cell: when the unique was added elsewhere and is viewed, it frees it (`C71_set_fails`).
- L3 a closure given to `get_or_init` that calls `get_or_init` on the same view: the outer call frees the value the view was made of, then panics at `unreachable!` (`C71_reentrant_fails`).

### Panics in user code
- P1 when the iterator given to `bulk_add_entity` panics, the components it had yielded stay in `data` without an entity: the next inserted entity reads the leftover one, every later one the component of the one before it (`C72_bulk_fails`, `C72_bulk_removal_fails`). The next `bulk_add_entity` makes entities for them.
- P2 insertion over the component of a dead entity, when the destructor of the replaced component panics: the dead entity's handle reads the new value, the new entity nothing (`C72_takeover_fails`).
- P3 a removal or deletion whose `on_removal` panics is in neither log (`C72_log_fails`).

### Panics in user code, worlds
- P4 `clear` (`src/entities/mod.rs:392-431`) updates the free list after the loop that calls `on_deletion`: when the callback panics the links were rewritten and the list heads were not. After two more entities the next `add_entity` reads the slot at the end-of-list index, out of bounds, in safe code. The slot the callback was running for has its generation bumped while its index still says alive, so an id that was never handed out is alive (`C73_clear_fails`).
- P5 `delete_entity` marks the entity dead first: when `on_deletion`, an `on_removal` or a destructor panics, the storages not yet visited keep the components, and a second `delete_entity` returns `false` without touching them (`C73_orphan_fails`). `strip` with the dead id removes them (`C73_strip`).
- P6 `add_entity` whose second callback panics leaves an alive entity with the first component, whose id the caller never gets (`C73_half_added_fails`).
- P7 `move_entity` and `move_components` remove a component before they insert it in the other world: when `on_insertion` of the other world (or a destructor there) panics the component is in neither (`C73_move_lost_fails`). `move_entity` kills the entity first: when a callback of the source panics the components not yet visited stay with the dead id (`C73_move_orphan_fails`); `strip` removes them.
- **C73** `clone_storages_to` visits the storages and the entities in the order of the map. When a clone function panics and that is caught, the other world can have the components but not the entities they belong to; its next `add_entity` hands out an id that has them already (`C73_clone_storages_fails`).

### The map of storages
- R1 the map of storages is in `std::sync::RwLock` and `read`/`write` unwrap (`src/public_transport.rs:121-140`): when the initialiser given to `custom_storage_or_insert*`, or the destructor of the unique that `add_unique` replaces, panics, every later call of every thread panics for good (`C74_initialiser_fails`, `C74_destructor_fails`). With a custom lock this does not happen (`C74_custom_lock`).
- R2 all wrappers of a unique share one id, and the downcast is unwrapped: viewing through `NonSend` a unique added with `add_unique`, or the other way round, panics instead of giving an error (`C74_kind_fails`).
- R3 `add_unique_non_send` and `add_unique_non_send_sync` called off the thread of the world return and drop the value (`C74_off_thread_fails`). The `non_*` versions keep the value that is there, `add_unique` replaces it (`C74_keeps_old_fails`).
- R4 `iter_storages` is documented to give all the storages; it leaves out those it cannot borrow (`C74_list_fails`).
- R5 errors of `custom_storage_or_insert*_by_id` name the id of the type, not the id that was asked for (`C74_error_id_fails`).

### Conditions on storages
- K1 the documentation of the storage conditions says "if the storage is already borrowed, assume it's not empty"; the condition borrows `AllStoragesViewMut`, so with any view held it is an error that ends the workload, and the `Err(_) => false` arm is dead code (`C75_borrowed_fails`).
- K2 with the `thread_local` and `parallel` features and a local thread pool, `run_batches_parallel` runs on a worker of the pool also the systems that need the thread of the world (`src/world/run_batches.rs:121-126`): systems with `AllStoragesViewMut`, or that view `NonSend` storages exclusively, and storage conditions always fail with a borrow error (`C57_local_pool_fails`, `C75_local_pool_fails`).
- K3 `run_if_storage_empty::<T>` looks at `SparseSet<T>` only (`C75_non_send_fails`); `Entities` is "empty" only before the first entity (`C75_entities_fails`).

### Information about workloads
- Y1 `SystemInfo::unique_id`, "a unique identifier for this system within the workload", is the number of the function in the scheduler: the same function twice has the same id (`C76_unique_id_fails`).
- Y2 `after` and `after_all[..].other_system` are positions in the workload, `before_all[..].other_system` and the system of a `conflict` are numbers of functions in the scheduler (`create_workload.rs:484` and `:513`): the same system is named by two numbers (`C76_references_fails`). They agree only when all functions are different and the scheduler knew none (`C76_numbers_partial`).
- Y3 `conflict`, "why this system could not be part of the previous batch", may be with a system of an older batch (`C76_previous_batch_fails`); a system put in a later batch because of the order of addition has neither a conflict nor an entry in `after` (`C76_unexplained_fails`).
- Y4 `Conflict::NotSendSync` is never produced (`C76_never_notSendSync`).
- Y5 `rename_workload` leaves the information under the old name (`C76_renamed_fails`). `World::workloads_info` keys the copy by the debug text of labels, so labels with equal text share an entry.
- Y6 when enabling tracking fails in `add_to_world` the workload is stored but its information is not (see C77).

### Tracking of registered workloads
- Z1 when enabling tracking fails in `add_to_world` (`TrackingAllStoragesBorrow`, `TrackingStorageBorrow`) the workload stays registered, without information, the storages before the failing one are enabled, and a second attempt gives `AlreadyExists` (`C77_borrowed_fails`).
- Z2 nothing calls `enable_tracking` for the views of `run_if` and `skip_if` conditions: a condition with a tracking view on components that do not declare it is accepted and fails in every run (`C77_condition_fails`, `C77_system_condition_fails`).
- Z3 `clone_storages_to` replaces storages of the target by ones with the declared flags: the views of workloads added before are refused (`C77_clone_fails`).
- Z4 adding a workload makes the storage of every component its systems view, also for untracked views.
- Z5 the `unreachable!()` of `add_to_world` is unreachable (`C77_errors`).
- Z6 a built workload run without `apply_tracking` fails on its tracking views (`C78_apply_fails`).
- Z7 the numbers of systems in the information depend on what was added before (`C79_numbers_fail`).

### Labels, identifiers and memory
- AA1 `"a"` and `String::from("a")` are different labels although both are shown as `"a"`: a workload added under one is not found under the other (`C80_text_fails`), and both get the same key in `workloads_info`.
- AA2 system and workload labels are compared by the type of the function only, equal ones can be shown differently (`C80_shown_fails`).
- AA3 `StorageId::Custom(n)` compares as less than any `TypeId` but as greater than `StorageId::from(type_id)` (`C81_order_fails`).
- AA4 a `TypeInfo` that was serialized and read has the default identifier: borrows of different storages become equal, and it is not equal to what was written (`C81_read_fails`, `C81_written_fails`).
- AA5 equal descriptions can differ in `thread_safe` and `name` (`C81_threadSafe_fails`).
- AA6 the table of a storage never shrinks: removing, clearing or draining gives nothing back (`C82_table_kept`), and one component for an entity with a large index costs a word per 32 indices below it (`C82_count_fails`).
- AA7 the component count reported for the entities includes the deleted ones (`C82_alive_fails`).

### Systems that track changes, in parallel
- AB1 a workload can have the same function twice, both instances share one `last_run`: when they run at the same time, one can read the time of the other as the time of its last run and is told that nothing changed although no run of it ever ended (`C83_twice_fails`).

### Presence of uniques
- AC1 `are_all_uniques_present_in_world` reports uniques that are only asked for through `Option`, `UniqueOrDefaultView(Mut)` or `UniqueOrInitView(Mut)`, although these systems never fail for that (`C84_alarm_fails`).
- AC2 it does not look at the views of `run_if` conditions: a workload it accepts fails at the first condition with a missing unique (`C84_condition_fails`).
- AC3 its documentation says nested workloads have to be present in the `World`, but the loop only looks at the systems stored in the workload itself, which already include those of nested workloads.

### Custom storages
- `move_entity`, `move_components`, `clone_entity_to` and `clone_components_to` insert the components of custom storages into the ordinary storage of the type: they arrive under another id, replace what is there, and of two components of the same type one is lost without notice (`C87_move_fails`, `C87_clone_fails`; `src/sparse_set/mod.rs:817-833,858-876`).

### Clones
- The clones of `NonSend`, `NonSync` and `NonSendSync` storages keep the tracking that was turned on at run time, those of ordinary storages do not (`C88_local_fails`; `src/sparse_set/thread_local.rs:64-90,165-191,268-294` against `src/sparse_set/mod.rs:835-856`); the documentation says that tracking is not cloned.

### Timestamps
- The first borrow that begins after `get_tracking_timestamp()` gets that very timestamp, so what it does is missing from windows started there (`C89_fails`; `src/world.rs:842-852`). `clear_all_inserted` and `clear_all_removed_and_deleted_older_than_timestamp` have the same cause (`C26_fails`, `C27_fails`).

### Derived views
- `#[derive(IntoIter)]` on a struct with names leaves out fields whose type is not written as a path, a tuple or a parenthesised type for example, without an error (`shipyard_proc/src/into_iter_expand.rs:87`: an `if let` without `else`), so that the iteration yields entities without the components of these views. The code for structs without names refuses them (C91_iter_left_out_fails).
- `#[shipyard(name = value, default)]`: the search for `default` stops at the first word with a value, and the field is borrowed (C91_default_after_value_fails).
- A struct with only `default` fields declares nothing but borrows AllStorages, as `()` does (C91_only_default_fails, see C57_unit_fails).

### Nested workloads
- The `run_if` condition of a nested workload is copied to each of its systems (`src/scheduler/workload.rs:222-229`) and asked once for each. A system that changes what the condition reads switches off the later systems of its own workload (C92_written_fails).
- The copies share one `last_run` (`Arc<AtomicU64>`, `src/scheduler/into_workload_run_if.rs:176`). A condition such as "was anything modified since I was last asked" holds for the first system only: the others never run, although the workload run by itself runs all of them (C92_tracked_fails).

### Views made from an id
- **C98** `View(Mut)::new_for_custom_storage` set all the timestamps of the view, also `current`, to 0 (`src/views/view.rs:182-191`, `src/views/view_mut.rs:171-180`). The id of an ordinary component storage (`StorageId::of::<SparseSet<T>>()`) is accepted, and then changes made through the view are stamped 0: no view ever reports them, and a write erases a modification that was not yet seen (`C98_tracking_fails`).

### add_workload
- **C99** `fn f() -> Workload { g.into_workload() }` where `g` returns `Workload::new("x")`: `into_workload` replaces the name by `g` and leaves `overwritten_name` set (`src/scheduler/into_workload.rs:146-158`), so `add_workload(f)` (`src/scheduler/workload.rs:99-107`) stores it as `g`; `run_workload(f)` and `run_workload("x")` return `MissingWorkload` (`C99_nested_fails`).
- `add_workload` accepts functions that return tuples, but the label of such a function is that of a system (`src/scheduler/into_workload_system.rs:60-72`): `run_workload(f)` returns `MissingWorkload` (`C99_tuple_fails`).

### Several worlds
- **C100** `core::mem::swap` of the `AllStorages` of two worlds, which `DerefMut` of `AllStoragesViewMut` allows, gives each world contents with the counter of the other one: methods of `AllStorages` (`World::add_entity`, `add_component`, `remove`, `delete_entity`, ...) take timestamps from that counter, systems and views from the one of the world (`src/world.rs:842`, `src/all_storages/mod.rs:1232`). Changes are then not reported, or reported late (`C100_fails`, `C100_lost`).

### Serialization
- X1 `UniqueOrInitViewMut` read into a world without the unique succeeds and drops the value (`C62_unique_or_init_fails`).
- X2 reading into a `UniqueViewMut` is not reported by `is_modified` (`C62_unique_tracking_fails`); through `UniqueOrDefaultViewMut` it is, even when reading fails.
- X3 `type_names` writes a struct but only `visit_map` is implemented: bincode refuses to read what it wrote (`C62_typed_bincode_fails`).
- X4 entities are serialized without a length: bincode refuses (`C62_entities_bincode_fails`).
- X5 after an insertion over the component of a dead entity the wrong id is serialized (`C62_view_fails`, from S1).
- X6 an index of 2^48 - 1 or more in the input is a panic rather than an error (`C62_malformed_id_fails`); binary input is not checked at all, `u64::MAX` makes `NonZeroU64::new_unchecked(0)`.
- X7 when reading fails halfway the components read before stay (`C62_error_keeps_fails`).
- X8 dead slots are not serialized: the restored world hands out ids that were dead in the original one, so stale handles come back to life (`C62_stale_id_fails`).

## The log of wrong programs

`seeded/LOG.jsonl` has one line per attempt. `theorems_failed` is what failed in that run, as the build reported it. The build stops below
the first module that fails, so a lemma or an example may be listed and the theorems that rest on it not; attempts that only built one
module and what it imports list what failed there. A line with no failed theorem is a program that went unnoticed:
either the claim says why it breaks no property, or `theorems_tightened` names the theorems strengthened because of it.
17 such lines of the automatic attempts used to list the strengthened theorems as failed, which that run had not shown; they now list
none. These 17 wrong programs were built again against the strengthened theorems and were all refused: see the
lines whose edit begins with "re-run after tightening".
