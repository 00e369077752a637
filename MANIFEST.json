{
 "claims": [
  {
   "property": "C01",
   "status": "proved",
   "theorems": [
    "Verif.Bits.C01_roundtrip",
    "Verif.Bits.C01_injective",
    "Verif.Bits.C01_eq_iff",
    "Verif.Bits.C01_from_inner_unvalidated_fails",
    "Verif.Bits.C01_pair_model_refines_words",
    "Verif.Bits.C01_constructors_refine"
   ],
   "note": "64-bit words with the code's shifts and masks; the pair model refines them. from_inner accepts the non-id 0 pattern: see the _fails theorem."
  },
  {
   "property": "C02",
   "status": "proved",
   "theorems": [
    "Verif.Bits.C02_human_roundtrip",
    "Verif.Bits.C02_binary_roundtrip",
    "Verif.Bits.C02_injective",
    "Verif.Bits.C02_binary_decoder_unvalidated_fails"
   ],
   "note": "Both encodings round trip. The binary decoder accepts words that are not ids (C02_binary_decoder_unvalidated_fails)."
  },
  {
   "property": "C03",
   "status": "proved",
   "theorems": [
    "Verif.Entities.C03_ids_never_reused",
    "Verif.Entities.C03_next_add_is_fresh"
   ],
   "note": "All histories of adds, bulk adds, deletes, and also spawns and clears of unexhausted stores."
  },
  {
   "property": "C04",
   "status": "partial",
   "theorems": [
    "Verif.Entities.C04_alive_exact_partial",
    "Verif.Entities.C04_alive_exact",
    "Verif.Entities.C04_alive_spec_words",
    "Verif.Entities.C04_fails",
    "Verif.Entities.C04_delete_other_unaffected"
   ],
   "note": "C04_alive_exact: all histories, with the exception spelled out. The property as stated: exact for histories that never delete an id of generation >= 65533; C04_fails shows the code violates the property there (delete returns true, entity stays alive)."
  },
  {
   "property": "C05",
   "status": "proved",
   "theorems": [
    "Verif.Entities.C05_iter_alive",
    "Verif.Entities.C05_iter_lasting",
    "Verif.Entities.C05_iter_spec_partial"
   ],
   "note": "iter = alive ids in index order in every reachable state; C05_iter_lasting relates it to the history."
  },
  {
   "property": "C06",
   "status": "partial",
   "theorems": [
    "Verif.Entities.C06_total_partial",
    "Verif.Entities.C06_fails",
    "Verif.Entities.C06_clear_panics_fails"
   ],
   "note": "Total and in bounds from all reachable states; C06_fails / C06_clear_panics_fails: clear with an exhausted slot leads to an out of bounds read or a panic."
  },
  {
   "property": "C07",
   "status": "proved",
   "theorems": [
    "Verif.Entities.C07_slots_recycled_fifo"
   ],
   "note": "FIFO recycling and slot accounting for all histories; clears of stores with exhausted slots are left out (C06_fails)."
  },
  {
   "property": "C08",
   "status": "partial",
   "theorems": [
    "Verif.Entities.C08_bulk_add_partial",
    "Verif.Entities.C08_fails"
   ],
   "note": "Proved when the lower size hint is the length; C08_fails proves that every shorter hint loses a component."
  },
  {
   "property": "C09",
   "status": "partial",
   "theorems": [
    "Verif.Entities.C09_spawn_partial",
    "Verif.Entities.C09_spawn_refused_iff",
    "Verif.Entities.C09_dead_generation_fails"
   ],
   "note": "All ids of generation < 65535; C09_dead_generation_fails shows the overflow for 65535."
  },
  {
   "property": "C10",
   "status": "partial",
   "theorems": [
    "Verif.Entities.C10_clear_partial",
    "Verif.Entities.C10_callback_fails",
    "Verif.Entities.C10_duplicate_fails"
   ],
   "note": "Proved for unexhausted stores; C10_callback_fails and C10_duplicate_fails show what the code violates."
  },
  {
   "property": "C11",
   "status": "proved",
   "theorems": [
    "Verif.Entities.C11_callback_log"
   ],
   "note": "All histories without clear, also spawns and exhausted slots."
  },
  {
   "property": "C12",
   "status": "proved",
   "theorems": [
    "Verif.SparseSet.C12_reads_last_write",
    "Verif.SparseSet.C12_results",
    "Verif.SparseSet.C12_total",
    "Verif.SparseSet.C12_contains",
    "Verif.SparseSet.C12_reserve",
    "Verif.SparseSet.C12_insert_get"
   ],
   "note": "Refinement of a table specification (Verif/Spec/Storage.lean) over all histories of calls on one storage, totality and memory safety included, for ids with generation < 65535."
  },
  {
   "property": "C13",
   "status": "proved",
   "theorems": [
    "Verif.SparseSet.C13_stale_handle"
   ],
   "note": "Any older handle of the same index, for every call of the storage API."
  },
  {
   "property": "C14",
   "status": "proved",
   "theorems": [
    "Verif.SparseArray.C14_flat_lookup",
    "Verif.SparseArray.C14_write_local",
    "Verif.SparseArray.C14_allocate_total"
   ],
   "note": "The paged array behaves as a flat map with lazily allocated pages."
  },
  {
   "property": "C15",
   "status": "partial",
   "theorems": [
    "Verif.SparseSet.C15_remove_partial",
    "Verif.SparseSet.C15_remove_once",
    "Verif.SparseSet.C15_older_fails"
   ],
   "note": "Value, absence afterwards; every entity of another index and every newer entity of the same index keeps its component with both timestamps. A component left of an older, dead entity of the same index is lost (C15_older_fails)."
  },
  {
   "property": "C16",
   "status": "partial",
   "theorems": [
    "Verif.SparseSet.C16_removed_log",
    "Verif.SparseSet.C16_deleted_log_partial",
    "Verif.SparseSet.C16_one_entry",
    "Verif.SparseSet.C16_fails"
   ],
   "note": "Removal log: all histories. Deletion log: histories in which no component is inserted over the one of an older entity; C16_fails shows that retain loses the deletion after such an insertion."
  },
  {
   "property": "C17",
   "status": "partial",
   "theorems": [
    "Verif.C17_since_partial",
    "Verif.C17_view_since_partial",
    "Verif.SparseSet.C17_storage_clears_both",
    "Verif.SparseSet.C17_fails",
    "Verif.SparseSet.C17_view_clears_removed_partial",
    "Verif.SparseSet.C17_one_log"
   ],
   "note": "Holds for the call made by the world, over histories: later views list exactly what happened after it (C17_since_partial); C17_fails: the call made by the views leaves the deletion log."
  },
  {
   "property": "C18",
   "status": "proved",
   "theorems": [
    "Verif.SparseSet.C18_sort"
   ],
   "note": "For every permutation the standard sort may return."
  },
  {
   "property": "C19",
   "status": "partial",
   "theorems": [
    "Verif.SparseSet.C19_retain_mut",
    "Verif.SparseSet.C19_retain",
    "Verif.SparseSet.C19_retain_log_partial",
    "Verif.SparseSet.C19_fails"
   ],
   "note": "Calls and survivors: all histories; ids given to the closure and log: histories without takeover, C19_fails otherwise."
  },
  {
   "property": "C20",
   "status": "partial",
   "theorems": [
    "Verif.SparseSet.C20_drain_partial",
    "Verif.SparseSet.C20_clear",
    "Verif.SparseSet.C20_fails"
   ],
   "note": "Every consumption point of the drain iterator. The ids are right when no component was inserted over the one of a dead entity; C20_fails otherwise."
  },
  {
   "property": "C21",
   "status": "partial",
   "theorems": [
    "Verif.SparseSet.C21_insertion_calls",
    "Verif.SparseSet.C21_insert_once",
    "Verif.SparseSet.C21_removal_once",
    "Verif.SparseSet.C21_removal_calls_partial",
    "Verif.SparseSet.C21_fails"
   ],
   "note": "insert, remove, delete, retain; C21_fails: clear, drain, stale removal and bulk insertion do not call the callbacks."
  },
  {
   "property": "C22",
   "status": "proved",
   "theorems": [
    "Verif.SparseSet.C22_apply",
    "Verif.SparseSet.C22_apply_mut"
   ],
   "note": "apply and apply_mut, all storages and pairs, including the panics."
  },
  {
   "property": "C23",
   "status": "partial",
   "theorems": [
    "Verif.TrkSpec.C23_reported_iff_partial",
    "Verif.TrkSpec.C23_at_most_once_partial",
    "Verif.TrkSpec.C23_reporter_looks_after",
    "Verif.TrkSpec.C23_failed_run_fails",
    "Verif.TrkSpec.C23_race_fails"
   ],
   "note": "All programs of writes, clears and atomic runs of any number of systems. Missing: runs that fail after taking their timestamp (C23_failed_run_fails) and timestamps taken before the storage is borrowed while another thread writes (C23_race_fails); in both cases the code loses a change. Histories without insertions over components of dead entities (see C24_takeover_fails)."
  },
  {
   "property": "C24",
   "status": "partial",
   "theorems": [
    "Verif.TrkSpec.C24_inserted_exact",
    "Verif.TrkSpec.C24_inserted_or_modified_partial",
    "Verif.TrkSpec.C24_flags_exact_partial",
    "Verif.TrkSpec.C24_unaccessed_partial",
    "Verif.TrkSpec.C24_takeover_fails",
    "Verif.TrkSpec.C24_bulk_tuple_fails"
   ],
   "note": "is_inserted: every window and history (C24_inserted_exact). is_modified: every window and history in which no component was inserted over the one of a dead entity (C24_flags_exact_partial), C24_takeover_fails shows the code is wrong otherwise. C24_bulk_tuple_fails: bulk insertion of tuples is never reported."
  },
  {
   "property": "C25",
   "status": "partial",
   "theorems": [
    "Verif.TrkSpec.C25_takeover_fails",
    "Verif.TrkSpec.C25_clear_inserted_partial",
    "Verif.TrkSpec.C25_clear_modified_partial",
    "Verif.TrkSpec.C25_both"
   ],
   "note": "Both clears of a view, every later look, without insertions over components of dead entities (C25_takeover_fails)."
  },
  {
   "property": "C26",
   "status": "partial",
   "theorems": [
    "Verif.TrkSpec.C26_world_clear_partial",
    "Verif.TrkSpec.C26_world_clear_modified_partial",
    "Verif.TrkSpec.C26_fails",
    "Verif.UTrk.C26_unique_fails",
    "Verif.C26_world_storages",
    "Verif.C26_world_both"
   ],
   "note": "Everything before the clear is not reported by runs of systems that ran since; C26_fails and C26_unique_fails show what the code violates. C26_world_storages is about the storages of a world at one moment."
  },
  {
   "property": "C27",
   "status": "partial",
   "theorems": [
    "Verif.C27_since_partial",
    "Verif.SparseSet.C27_older_than_partial",
    "Verif.SparseSet.C27_one_log_partial",
    "Verif.SparseSet.C27_fails"
   ],
   "note": "Entries above t stay, in order, over histories as seen by every later view (C27_since_partial); C27_fails: an entry with timestamp exactly t is dropped."
  },
  {
   "property": "C28",
   "status": "proved",
   "theorems": [
    "Verif.UTrk.C28_all_iff",
    "Verif.UTrk.C28_reported_iff",
    "Verif.UTrk.C28_value",
    "Verif.UTrk.C28_direct_iff",
    "Verif.UTrk.C28_both_and_clone",
    "Verif.UTrk.C28_window"
   ],
   "note": "All programs over a unique: systems of workloads, and views borrowed directly with the clears of views (C28_reported_iff and C28_direct_iff without World::clear_all_*, which make a unique look added or written, C26_unique_fails; C28_all_iff says what systems see in all programs, with these calls). Copies of uniques."
  },
  {
   "property": "C29",
   "status": "partial",
   "theorems": [
    "Verif.IterSpec.C29_query_partial",
    "Verif.IterSpec.C29_views_partial",
    "Verif.IterSpec.C29_any_driver_partial",
    "Verif.IterSpec.C29_world_nested_partial",
    "Verif.IterSpec.C29_world_alone",
    "Verif.IterSpec.C29_world_flat",
    "Verif.IterSpec.C29_world_iter_partial",
    "Verif.IterSpec.C29_world_iter_fails",
    "Verif.IterSpec.C29_world_iter_oob_fails",
    "Verif.IterSpec.C29_rounding",
    "Verif.IterSpec.C29_sails",
    "Verif.IterSpec.C29_query_code_partial",
    "Verif.IterSpec.C29_takeover_fails",
    "Verif.IterSpec.C29_takeover_oob_fails"
   ],
   "note": "Views: every tuple (nested, with any member the API accepts), every contents, every driving storage; with the f32 arithmetic of the code, every query of at most 8192 views in which no !&mut view is nested (C29_sails; C30_exclusive_fails shows that otherwise building the iterator overflows). World::iter: one component, alone or in a tuple of one, without restriction (C29_world_alone); otherwise, nested tuples included, only when its page count mistake makes no difference (C29_world_iter_partial, C29_world_nested_partial); C29_world_iter_fails and C29_world_iter_oob_fails show it misses entities and reads out of bounds. Only storages in which no component was inserted over the one of a dead entity, which includes all storages of worlds used through their API (C86): C29_takeover_fails and C29_takeover_oob_fails show that otherwise loops over several views miss entities, and read out of bounds when the stored id becomes the dead one."
  },
  {
   "property": "C30",
   "status": "partial",
   "theorems": [
    "Verif.IterSpec.C30_not_partial",
    "Verif.IterSpec.C30_optional_partial",
    "Verif.IterSpec.C30_not_anywhere_partial",
    "Verif.IterSpec.C30_optional_anywhere_partial",
    "Verif.IterSpec.C30_exclusive_fails",
    "Verif.IterSpec.C30_takeover_fails"
   ],
   "note": "Any position of any tuple that the API accepts (C30_not_anywhere_partial, C30_optional_anywhere_partial). A nested tuple with two !&mut views overflows a usize while the iterator is built (C30_exclusive_fails). Without insertions over components of dead entities (C30_takeover_fails)."
  },
  {
   "property": "C31",
   "status": "partial",
   "theorems": [
    "Verif.IterSpec.C31_or_fold_partial",
    "Verif.IterSpec.C31_next_fails",
    "Verif.IterSpec.C31_next_back_fails",
    "Verif.IterSpec.C31_nested_fails",
    "Verif.IterSpec.C31_ids_fails",
    "Verif.IterSpec.C31_not_inside_fails",
    "Verif.IterSpec.C31_both_ends_partial",
    "Verif.IterSpec.C31_exclusive_fails",
    "Verif.IterSpec.C31_takeover_fails"
   ],
   "note": "fold and rfold: all pairs of storages. next and next_back: when the second storage is not empty; C31_next_fails, C31_next_back_fails show the other case. C31_nested_fails, C31_ids_fails, C31_not_inside_fails, C31_exclusive_fails: other operands of |. Without insertions over components of dead entities (C31_takeover_fails)."
  },
  {
   "property": "C32",
   "status": "partial",
   "theorems": [
    "Verif.IterSpec.C32_flag_partial",
    "Verif.IterSpec.C32_not_flag_partial",
    "Verif.IterSpec.C32_untracked_fails",
    "Verif.IterSpec.C32_takeover_fails",
    "Verif.WorldIter.C32_view_partial"
   ],
   "note": "All windows, storages that track what is asked; C32_view_partial states it through the flags of the view itself, for storages of any life (clones included). C32_untracked_fails: the filters can be built on storages that do not track, and read out of bounds. Without insertions over components of dead entities (C32_takeover_fails)."
  },
  {
   "property": "C33",
   "status": "partial",
   "theorems": [
    "Verif.IterSpec.C33_next_partial",
    "Verif.IterSpec.C33_next_or_partial",
    "Verif.IterSpec.C33_fold_partial",
    "Verif.IterSpec.C33_rfold_partial",
    "Verif.IterSpec.C33_next_back_fails",
    "Verif.IterSpec.C33_next_back_wrong_id_fails",
    "Verif.IterSpec.C33_or_fold_fails",
    "Verif.IterSpec.C33_takeover_fails"
   ],
   "note": "next, fold (without |), rfold. C33_next_back_fails, C33_next_back_wrong_id_fails, C33_or_fold_fails: the code is wrong for next_back and for fold over |. Without insertions over components of dead entities (C33_takeover_fails)."
  },
  {
   "property": "C34",
   "status": "partial",
   "theorems": [
    "Verif.IterSpec.C34_both_ends_partial",
    "Verif.IterSpec.C34_once",
    "Verif.IterSpec.C34_exhausted",
    "Verif.IterSpec.C34_or_order_fails",
    "Verif.IterSpec.C34_takeover_fails"
   ],
   "note": "All interleavings, queries without |. For | see C31_both_ends_partial; C34_or_order_fails: with |, next_back does not start at the last item. Without insertions over components of dead entities (C34_takeover_fails)."
  },
  {
   "property": "C35",
   "status": "partial",
   "theorems": [
    "Verif.IterSpec.C35_split_lengths",
    "Verif.IterSpec.C35_split_at_fails",
    "Verif.IterSpec.C35_splits_partial",
    "Verif.IterSpec.C35_takeover_fails"
   ],
   "note": "All split trees, at any position of the iteration. Iterators with | cannot be split (no Clone), and the cut itself would be wrong (C35_split_at_fails; only the lengths are right, C35_split_lengths). Without insertions over components of dead entities (C35_takeover_fails)."
  },
  {
   "property": "C36",
   "status": "partial",
   "theorems": [
    "Verif.IterSpec.C36_bounds_partial",
    "Verif.IterSpec.C36_or_partial",
    "Verif.IterSpec.C36_exact_partial"
   ],
   "note": "All positions; exact for a single view. Without insertions over components of dead entities (C29_takeover_oob_fails)."
  },
  {
   "property": "C37",
   "status": "proved",
   "theorems": [
    "Verif.Borrow.C37_exclusive",
    "Verif.Borrow.C37_counts"
   ],
   "note": "Every interleaving of atomic operations of any number of threads on one cell, with the code's word arithmetic and overflow checks."
  },
  {
   "property": "C38",
   "status": "proved",
   "theorems": [
    "Verif.Borrow.C38_no_guard",
    "Verif.Borrow.C38_read",
    "Verif.Borrow.C38_write",
    "Verif.Borrow.C38_idle",
    "Verif.Borrow.C38_no_panic",
    "Verif.Borrow.C38_abort"
   ],
   "note": "Refused borrows leave no guard and the cell as usable as before; panic guard counts included."
  },
  {
   "property": "C39",
   "status": "proved",
   "theorems": [
    "Verif.Borrow.C39_world_borrow",
    "Verif.Borrow.C39_all_storages_borrow",
    "Verif.Borrow.C39_system",
    "Verif.Borrow.C39_drop",
    "Verif.Borrow.C39_single",
    "Verif.Borrow.C39_granted_all_storages",
    "Verif.Borrow.C39_granted",
    "Verif.Borrow.C39_granted_system",
    "Verif.Borrow.C39_or_init",
    "Verif.Borrow.C39_or_default",
    "Verif.Borrow.C39_parameters",
    "Verif.Borrow.C39_parameters_drop",
    "Verif.Borrow.C39_or_init_granted",
    "Verif.Borrow.C39_or_default_granted"
   ],
   "note": "Any nesting of tuples, Option and views, borrowed from World, AllStorages or by a system; guards counted per cell. C39_granted*: exactly when the borrow succeeds, for views and tuples of views (leaves other than AllStorages itself). C39_or_init(_granted), C39_or_default(_granted), C39_parameters and C39_parameters_drop: the views that do not need the unique, alone and among the parameters of a system."
  },
  {
   "property": "C40",
   "status": "partial",
   "theorems": [
    "Verif.C40_exact",
    "Verif.C40_delete_entity_partial",
    "Verif.C40_exhausted_fails"
   ],
   "note": "For every world reachable through the API and every id, with what happens to each proved exactly (C40_exact). The one exception to the property: entities of generation 65533 and 65534 lose their components and stay alive (C40_exhausted_fails)."
  },
  {
   "property": "C41",
   "status": "partial",
   "theorems": [
    "Verif.C41_components_belong_to_alive_entities_partial",
    "Verif.C41_get_total",
    "Verif.C41_spawn_fails",
    "Verif.C41_move_refused_fails",
    "Verif.C41_clone_storages_fails"
   ],
   "note": "Invariant over all histories of the listed calls and more (bulk, views, cross-world moves and clones). Left out: a clear with exhausted generations, and the calls that do leave orphans (spawn over an alive entity, a refused move_entity, clone_storages_to a world with components), each with a witness."
  },
  {
   "property": "C42",
   "status": "partial",
   "theorems": [
    "Verif.C42_strip",
    "Verif.C42_bulk_strip",
    "Verif.C42_retain_storage_partial",
    "Verif.C42_retain_nothing_fails",
    "Verif.C42_foreign_id_fails",
    "Verif.C42_retain",
    "Verif.C42_retain_missing_storage_fails"
   ],
   "note": "strip, bulk_strip, retain_storage of at least one type, retain_storage_by_id and AllStorages::retain, for ids handed out by the world. False for retain_storage::<()> and for foreign ids; retain panics on a missing storage (witnesses)."
  },
  {
   "property": "C43",
   "status": "proved",
   "theorems": [
    "Verif.C43_add_component_dead",
    "Verif.C43_add_component",
    "Verif.C43_listed_once",
    "Verif.C43_add_entity",
    "Verif.C43_bulk_add_entity"
   ],
   "note": "add_component on dead and alive ids, for all component lists with optional members; add_entity and bulk_add_entity."
  },
  {
   "property": "C44",
   "status": "partial",
   "theorems": [
    "Verif.C44_remove",
    "Verif.C44_delete_component_partial",
    "Verif.C44_delete_one",
    "Verif.C44_delete_component_fails"
   ],
   "note": "remove for all tuples of distinct types and all presence patterns; delete_component of one type. delete_component of several types stops at the first present one, so the property is false of it (C44_delete_component_fails); what it does delete is proved."
  },
  {
   "property": "C45",
   "status": "partial",
   "theorems": [
    "Verif.C45_exact",
    "Verif.C45_exhausted_fails",
    "Verif.C45_delete_any_partial"
   ],
   "note": "For all tuples, every iteration order of the hash set and every generation (C45_exact). The one exception to the property: holders of generation 65533 and 65534 lose their components and stay alive (C45_exhausted_fails)."
  },
  {
   "property": "C46",
   "status": "partial",
   "theorems": [
    "Verif.C46_move_exact",
    "Verif.C46_move_refused",
    "Verif.C46_move_accepted",
    "Verif.C46_move_entity_partial",
    "Verif.C46_move_dead",
    "Verif.C46_move_refused_fails",
    "Verif.C46_move_over_alive_fails",
    "Verif.C46_move_merges_fails",
    "Verif.C46_move_components"
   ],
   "note": "Every call is covered: what each accepted move does, whatever is alive in the other world (C46_move_accepted; C46_move_exact where nobody else is alive at that index), what a refused move does (C46_move_refused), a dead entity (C46_move_dead). The property itself fails in these cases: a refused move loses the entity (C46_move_refused_fails), a move over an alive entity kills it (C46_move_over_alive_fails) or merges (C46_move_merges_fails). move_components is proved for alive entities."
  },
  {
   "property": "C47",
   "status": "partial",
   "theorems": [
    "Verif.C47_clone_entity_exact",
    "Verif.C47_clone_entity_refused",
    "Verif.C47_clone_entity_accepted",
    "Verif.C47_register_clone",
    "Verif.C47_clone_entity_partial",
    "Verif.C47_clone_entity_merges_fails",
    "Verif.C47_clone_components",
    "Verif.C47_clone_storages",
    "Verif.C47_clone_world",
    "Verif.C47_clone_of_clone_fails"
   ],
   "note": "clone_storages_to and World::clone for all worlds; clone_entity_to as stated when no entity is alive at that index in the other world (C47_clone_entity_merges_fails otherwise), and exactly what it does in every other case (C47_clone_entity_exact, C47_clone_entity_accepted, C47_clone_entity_refused); clone_components_to."
  },
  {
   "property": "C48",
   "status": "proved",
   "theorems": [
    "Verif.UMem.C48_uniques",
    "Verif.UMem.C48_other_types"
   ],
   "note": "Refinement of a map from types to values over all programs that do not add a unique of a type they hold a view of; C63_fails shows this hypothesis is needed."
  },
  {
   "property": "C49",
   "status": "partial",
   "theorems": [
    "Verif.Sched.C49_each_system_once",
    "Verif.Sched.C49_sequential_partial",
    "Verif.Sched.C49_parallel_partial",
    "Verif.Sched.C49_batches_agree",
    "Verif.Sched.C49_workload_condition",
    "Verif.Sched.C49_table",
    "Verif.Sched.C49_sequential_fails"
   ],
   "note": "Every workload the API builds, every scheduler state. Missing: capturing closures of one type with different captures (hypothesis OneFn); C49_sequential_fails shows the code runs the first one twice."
  },
  {
   "property": "C50",
   "status": "proved",
   "theorems": [
    "Verif.Sched.C50_batch_no_conflict"
   ],
   "note": "Any two different systems of one batch of any schedule the code accepts."
  },
  {
   "property": "C51",
   "status": "proved",
   "theorems": [
    "Verif.Sched.C51_asked",
    "Verif.Sched.C51_explicit_order",
    "Verif.Sched.C51_one_batch",
    "Verif.Sched.C51_append_leftover_fails",
    "Verif.Sched.C51_into_sequential_fails"
   ],
   "note": "before_all, after_all and barriers, after any nesting of workloads: C51_asked is over Spec/Said.lean, a relation between a workload built in any way and what was said about each of its systems and the workloads around it. C51_into_sequential_fails: into_sequential_workload adds no effective constraint; C51_append_leftover_fails: the emptied argument of append panics."
  },
  {
   "property": "C52",
   "status": "proved",
   "theorems": [
    "Verif.Sched.C52_asked",
    "Verif.Sched.C52_insertion_order",
    "Verif.Sched.C52_conflicting_insertion_order"
   ],
   "note": "Sequential order for all unordered systems; strictly earlier batch when they conflict. C52_asked: in terms of what was said (Spec/Said.lean)."
  },
  {
   "property": "C53",
   "status": "proved",
   "theorems": [
    "Verif.Sched.C53_asked",
    "Verif.Sched.C53_ok_acyclic",
    "Verif.Sched.C53_error_cyclic",
    "Verif.Sched.C53_cycle_iff",
    "Verif.Sched.C53_total",
    "Verif.Sched.C53_explicit_only_fails",
    "Verif.Sched.C53_extend_fails"
   ],
   "note": "Exact, and building never panics or diverges. C53_asked: in terms of what was said (Spec/Said.lean). The constraints include insertion order of unordered systems; C53_explicit_only_fails and C53_extend_fails are findings."
  },
  {
   "property": "C54",
   "status": "partial",
   "theorems": [
    "Verif.Sched.C54_asked_in",
    "Verif.Sched.C54_asked_before",
    "Verif.Sched.C54_asked_after_partial",
    "Verif.Sched.C54_require_in_exact",
    "Verif.Sched.C54_require_before_partial",
    "Verif.Sched.C54_require_before_sound",
    "Verif.Sched.C54_require_before_fails",
    "Verif.Sched.C54_require_after_partial",
    "Verif.Sched.C54_require_after_fails"
   ],
   "note": "require_in_workload exact (C54_asked_in: in terms of what was said, Spec/Said.lean); require_before and require_after exact for the order the code looks at (explicit constraints and closest conflicts), sound for the schedule; C54_require_before_fails and C54_require_after_fails show the difference to the documented meaning."
  },
  {
   "property": "C55",
   "status": "partial",
   "theorems": [
    "Verif.Sched.C55_said",
    "Verif.Sched.C55_barrier_outside_fails",
    "Verif.Sched.C55_merge_systems",
    "Verif.Sched.C55_merge_spent",
    "Verif.Sched.C55_merge_barriers",
    "Verif.Sched.C55_merge_keeps_left",
    "Verif.Sched.C55_merge_keeps_right",
    "Verif.Sched.C55_append",
    "Verif.Sched.C55_tuple",
    "Verif.Sched.C55_append_barriers_fails",
    "Verif.Sched.C55_append_run_if_fails"
   ],
   "note": "merge and tuples in full; C55_said: every workload that can be built is covered by the relation Said. A barrier of a nested workload reaches the systems around it (C55_barrier_outside_fails). append keeps the systems, but drops barriers and conditions of its argument (C55_append_barriers_fails, C55_append_run_if_fails)."
  },
  {
   "property": "C56",
   "status": "partial",
   "theorems": [
    "Verif.Sched.C56_total",
    "Verif.Sched.C56_progress",
    "Verif.Sched.C56_terminates",
    "Verif.Sched.C56_parallel_sequential_partial",
    "Verif.Sched.C56_own_views_partial",
    "Verif.Sched.C56_deterministic_partial",
    "Verif.Sched.C56_disciplined",
    "Verif.Sched.C56_condition_fails"
   ],
   "note": "Any interleaving of the accesses of the systems of each batch. Conditions of systems may read and write, within the views of their system (C56_parallel_sequential_partial) or within views of their own that overlap with no other system of the batch (C56_own_views_partial): C56_condition_fails shows this is needed. C56_total, C56_progress and C56_terminates are about all workloads. Timestamps are compared in C85."
  },
  {
   "property": "C57",
   "status": "partial",
   "theorems": [
    "Verif.Borrow.C57_batch_partial",
    "Verif.Borrow.C57_acts",
    "Verif.Borrow.C57_non_sync_fails",
    "Verif.Borrow.C57_unit_fails",
    "Verif.Conds.C57_local_pool_fails"
   ],
   "note": "Any interleaving of the borrows of the systems of a batch. Missing: systems with a () parameter and systems with two shared views of a Send and not Sync storage, for which C57_unit_fails and C57_non_sync_fails show the property is false; with thread_local and a local thread pool systems that need the thread of the world always fail (C57_local_pool_fails)."
  },
  {
   "property": "C58",
   "status": "partial",
   "theorems": [
    "Verif.Sched.C58_valid_iff",
    "Verif.Sched.C58_error",
    "Verif.Sched.C58_workload",
    "Verif.Sched.C58_run_if_partial",
    "Verif.Sched.C58_run_if_fails"
   ],
   "note": "Exact for systems, with the exact error; for run_if functions only soundness, C58_run_if_fails shows invalid views are accepted."
  },
  {
   "property": "C59",
   "status": "proved",
   "theorems": [
    "Verif.Sched.C59_under",
    "Verif.Sched.C59_conditions",
    "Verif.Sched.C59_workload_conditions",
    "Verif.Sched.C59_nested_after_run_if_fails",
    "Verif.Sched.C59_parallel",
    "Verif.Sched.C59_system",
    "Verif.Sched.C59_workload_false",
    "Verif.Sched.C59_run_if",
    "Verif.Sched.C59_skip_if",
    "Verif.Sched.C59_workload_run_if",
    "Verif.Sched.C59_workload_skip_if"
   ],
   "note": "C59_conditions, C59_workload_conditions: all ways to build workloads (C59_under), every system under its own conditions and those around it; sequential runs, and parallel runs of all workloads in all interleavings; systems and conditions are arbitrary. What is nested after a run_if is not under it (C59_nested_after_run_if_fails), as documented."
  },
  {
   "property": "C60",
   "status": "partial",
   "theorems": [
    "Verif.Sched.C60_parallel_partial",
    "Verif.Sched.C60_own_views_partial",
    "Verif.Sched.C60_parallel",
    "Verif.Sched.C60_first_error",
    "Verif.Sched.C60_named",
    "Verif.Sched.C60_ok_all",
    "Verif.Sched.C60_sequential",
    "Verif.Sched.C60_sequential_own",
    "Verif.Sched.C60_name_fails"
   ],
   "note": "Sequential runs over all histories of the world; parallel runs of all workloads in all interleavings, and what the world looks like then for disciplined workloads (C60_parallel_partial). The reported name is the one the function was first registered under (C60_name_fails)."
  },
  {
   "property": "C61",
   "status": "proved",
   "theorems": [
    "Verif.Sched.C61_contains",
    "Verif.Sched.C61_add_used",
    "Verif.Sched.C61_add_result",
    "Verif.Sched.C61_set_default",
    "Verif.Sched.C61_run",
    "Verif.Sched.C61_run_own",
    "Verif.Sched.C61_run_default",
    "Verif.Sched.C61_default_first",
    "Verif.Sched.C61_default_set",
    "Verif.Sched.C61_rename",
    "Verif.Sched.C61_rename_overwrites_fails",
    "Verif.Sched.C61_failed_add_leaves_systems_fails"
   ],
   "note": "Refinement of a registry of named workloads over all histories of add, set_default and rename; running included. C61_run: a system runs the function its TypeId was first added with; C61_run_own when that is its own."
  },
  {
   "property": "C62",
   "status": "partial",
   "theorems": [
    "Verif.Serde.C62_entity_id",
    "Verif.Serde.C62_binary_form",
    "Verif.Serde.C62_malformed_id_fails",
    "Verif.Serde.C62_with_id",
    "Verif.Serde.C62_view_partial",
    "Verif.Serde.C62_view_fresh_partial",
    "Verif.Serde.C62_view_fails",
    "Verif.Serde.C62_typed_bincode_fails",
    "Verif.Serde.C62_error_keeps_fails",
    "Verif.Serde.C62_entities",
    "Verif.Serde.C62_entities_refused",
    "Verif.Serde.C62_entities_stopped",
    "Verif.Serde.C62_entities_bincode_fails",
    "Verif.Serde.C62_world",
    "Verif.Serde.C62_stale_id_fails",
    "Verif.Serde.C62_unique",
    "Verif.Serde.C62_unique_refused",
    "Verif.Serde.C62_unique_or_init_fails",
    "Verif.Serde.C62_unique_tracking_fails",
    "Verif.Serde.C62_unique_or_default_tracking"
   ],
   "note": "Ids in every format; views (with and without type names, override on or off) between any two storages with compatible ids; entities; whole-world snapshots of any reachable world, whose restoration is again a reachable world; uniques. False after an insertion over the component of a dead entity, for UniqueOrInitViewMut into an empty world, for entities and type names with bincode; restored worlds hand out old ids again (witnesses)."
  },
  {
   "property": "C63",
   "status": "partial",
   "theorems": [
    "Verif.UMem.C63_views_valid_partial",
    "Verif.UMem.C63_fails",
    "Verif.UMem.C63_two_exclusive_fails"
   ],
   "note": "Holds for programs that do not add a unique of a type they hold a view of; C63_fails: add_unique over a viewed unique frees it, safe code then reads freed memory."
  },
  {
   "property": "C64",
   "status": "partial",
   "theorems": [
    "Verif.TrkSpec.C64_takeover_fails",
    "Verif.TrkSpec.C64_window_partial",
    "Verif.TrkSpec.C64_override",
    "Verif.TrkSpec.C64_lists_exact_partial",
    "Verif.TrkSpec.C64_outside"
   ],
   "note": "All programs of removals, deletions, clears and runs, without insertions over components of dead entities (C64_takeover_fails)."
  },
  {
   "property": "C65",
   "status": "partial",
   "theorems": [
    "Verif.TrkSpec.C65_offers",
    "Verif.TrkSpec.C65_compiles",
    "Verif.TrkSpec.C65_attributes_partial",
    "Verif.TrkSpec.C65_second_attribute_fails",
    "Verif.TrkSpec.C65_skipped_fails",
    "Verif.TrkSpec.C65_tracked_partial",
    "Verif.TrkSpec.C65_exact_partial",
    "Verif.TrkSpec.C65_undeclared",
    "Verif.TrkSpec.C65_fails"
   ],
   "note": "All combinations, what is not declared is not reported (C65_undeclared), except Modification with Removal, whose constant does not contain the bit of removals (C65_fails). C65_attributes_partial: at most one track attribute, among any others; only the first of several is read (C65_second_attribute_fails), words in quotes or parentheses are skipped (C65_skipped_fails)."
  },
  {
   "property": "C66",
   "status": "partial",
   "theorems": [
    "Verif.TrkSpec.C66_borrow",
    "Verif.TrkSpec.C66_enable",
    "Verif.TrkSpec.C66_track_all",
    "Verif.TrkSpec.C66_inserted_since_partial",
    "Verif.TrkSpec.C66_modified_since_partial",
    "Verif.TrkSpec.C66_logs_since_partial",
    "Verif.TrkSpec.C66_iter_mut_partial",
    "Verif.TrkSpec.C66_yields",
    "Verif.TrkSpec.C66_iter_mut_fails",
    "Verif.TrkSpec.C66_replace_fails"
   ],
   "note": "Borrowing, insertions, single writes, removals and deletions for all histories; loops over &mut views whose type tracks modifications exactly when the storage does. False for loops over view types that do not track (C66_iter_mut_fails) and for storages replaced through DerefMut (C66_replace_fails). The reports: without insertions over components of dead entities (C24_takeover_fails)."
  },
  {
   "property": "C67",
   "status": "partial",
   "theorems": [
    "Verif.Threads.C67_affinity_partial",
    "Verif.Threads.C67_alone",
    "Verif.Threads.C67_wrong_thread",
    "Verif.Threads.C67_iter_fails",
    "Verif.Threads.C67_custom_ids_partial",
    "Verif.Threads.C67_custom_ids_fails"
   ],
   "note": "All interleavings of any number of threads, all four constructors and all types they accept. One exception: an iterator over &T of a component that is Send and not Sync can be sent to another thread, so two threads reach the same component (C67_iter_fails). With with_custom_thread_id, provided the function tells threads apart (C67_custom_ids_partial, C67_custom_ids_fails)."
  },
  {
   "property": "C68",
   "status": "partial",
   "theorems": [
    "Verif.C68_add_component",
    "Verif.C68_add_component_dead",
    "Verif.C68_add_entity",
    "Verif.C68_add_distinct_one",
    "Verif.C68_add_distinct_partial",
    "Verif.C68_add_distinct_fails",
    "Verif.C68_contains",
    "Verif.C68_get",
    "Verif.C68_index",
    "Verif.C68_get_mut",
    "Verif.C68_index_mut",
    "Verif.C68_remove",
    "Verif.C68_delete",
    "Verif.C68_get_or_insert",
    "Verif.C68_get_or_insert_dead"
   ],
   "note": "All calls, tuples and presence patterns; exceptions: add_distinct_component of several components drops those after the first it adds (C68_add_distinct_fails); get_or_insert on a dead id."
  },
  {
   "property": "C69",
   "status": "partial",
   "theorems": [
    "Verif.Guards.C69_partial",
    "Verif.Guards.C69_fails",
    "Verif.Guards.C69_escape_fails",
    "Verif.Guards.C69_escape_mut_fails"
   ],
   "note": "All interleavings in which the destructor of a view, Ref or iterator is not interrupted between its two steps (the others may be). C69_fails: interrupted, another thread can take AllStorages exclusively and free the storage. C69_escape_fails, C69_escape_mut_fails: references can be copied out of Ref and moved out of RefMut and outlive the borrow."
  },
  {
   "property": "C70",
   "status": "proved",
   "theorems": [
    "Verif.GetComp.C70_world_get",
    "Verif.GetComp.C70_world_get_error",
    "Verif.GetComp.C70_all_storages_get",
    "Verif.GetComp.C70_drop",
    "Verif.GetComp.C70_read",
    "Verif.GetComp.C70_write",
    "Verif.GetComp.C70_touch",
    "Verif.GetComp.C70_map"
   ],
   "note": "World::get and AllStorages::get, all tuples (nested ones flattened). How long the references live is C69."
  },
  {
   "property": "C71",
   "status": "partial",
   "theorems": [
    "Verif.UMem.C71_partial",
    "Verif.UMem.C71_open",
    "Verif.UMem.C71_get_or_init_new",
    "Verif.UMem.C71_get_or_init_there",
    "Verif.UMem.C71_filled",
    "Verif.UMem.C71_fetch",
    "Verif.UMem.C71_set",
    "Verif.UMem.C71_default",
    "Verif.UMem.C71_close",
    "Verif.UMem.C71_race_fails",
    "Verif.UMem.C71_set_fails",
    "Verif.UMem.C71_reentrant_fails"
   ],
   "note": "All interleavings in which no value is added to a unique while a view of it is held; calls not interrupted by an initialisation elsewhere always are such. C71_race_fails: two threads that initialise at once free the value one of them views; C71_set_fails; C71_reentrant_fails."
  },
  {
   "property": "C72",
   "status": "partial",
   "theorems": [
    "Verif.SparseSet.C72_reads_partial",
    "Verif.SparseSet.C72_total_partial",
    "Verif.SparseSet.C72_returned",
    "Verif.SparseSet.C72_returned_apply",
    "Verif.SparseSet.C72_insert_plain",
    "Verif.SparseSet.C72_insert_hook",
    "Verif.SparseSet.C72_removal_hook",
    "Verif.SparseSet.C72_unchanged",
    "Verif.SparseSet.C72_clear",
    "Verif.SparseSet.C72_retain",
    "Verif.SparseSet.C72_takeover_fails",
    "Verif.SparseSet.C72_bulk_fails",
    "Verif.SparseSet.C72_bulk_removal_fails",
    "Verif.SparseSet.C72_log_fails"
   ],
   "note": "All histories except iterators that panic inside bulk_add_entity (C72_bulk_fails, C72_bulk_removal_fails). C72_takeover_fails: an insertion over the component of a dead entity whose destructor panics gives the new value to the dead entity. C72_log_fails: a removal whose callback panicked is missing from the log."
  },
  {
   "property": "C73",
   "status": "partial",
   "theorems": [
    "Verif.C73_clone_storages",
    "Verif.C73_clone_usable_partial",
    "Verif.C73_calm_clone",
    "Verif.C73_clone_storages_fails",
    "Verif.C73_move_entity_partial",
    "Verif.C73_move_components",
    "Verif.C73_move_no_copy",
    "Verif.C73_move_one_lost",
    "Verif.C73_move_returned",
    "Verif.C73_clone_entity",
    "Verif.C73_clone_components",
    "Verif.C73_calm_between",
    "Verif.C73_move_lost_fails",
    "Verif.C73_move_orphan_fails",
    "Verif.C73_reads",
    "Verif.C73_handed_out",
    "Verif.C73_add_entity",
    "Verif.C73_add_component",
    "Verif.C73_bulk_add_entity",
    "Verif.C73_spawn",
    "Verif.C73_view_insert",
    "Verif.C73_delete_entity_partial",
    "Verif.C73_delete_entity_returned",
    "Verif.C73_strip",
    "Verif.C73_retain_storage",
    "Verif.C73_bulk_strip",
    "Verif.C73_remove",
    "Verif.C73_delete_component",
    "Verif.C73_clear_partial",
    "Verif.C73_delete_any",
    "Verif.C73_calm",
    "Verif.C73_orphan_fails",
    "Verif.C73_half_added_fails",
    "Verif.C73_clear_fails"
   ],
   "note": "Left out, because false: clear when on_deletion panics (C73_clear_fails: the next calls read out of bounds) and bulk_add_entity when the iterator panics (C72_bulk_fails). A cut delete_entity leaves components behind (C73_orphan_fails), a cut add_entity an entity whose id the caller never learns (C73_half_added_fails). move_entity, move_components, clone_entity_to and clone_components_to with panics, including a panicking clone function, are in Props/MoveUnwind.lean: a component is never in both worlds (C73_move_no_copy) and at most one is lost (C73_move_one_lost), but one can be (C73_move_lost_fails) and the dead entity can keep some (C73_move_orphan_fails). clone_storages_to with panics is in Props/CloneUnwind.lean (C73_clone_storages): each type is cloned as a whole or not at all, but the entities may be left out, so that the other world has components of ids it did not hand out yet (C73_clone_storages_fails); if the entities come first the other world stays usable (C73_clone_usable_partial)."
  },
  {
   "property": "C74",
   "status": "partial",
   "theorems": [
    "Verif.StorageMap.C74_guard",
    "Verif.StorageMap.C74_exclusive",
    "Verif.StorageMap.C74_not_sync",
    "Verif.StorageMap.C74_thread",
    "Verif.StorageMap.C74_find",
    "Verif.StorageMap.C74_idle",
    "Verif.StorageMap.C74_or_insert",
    "Verif.StorageMap.C74_insert",
    "Verif.StorageMap.C74_made",
    "Verif.StorageMap.C74_made_once",
    "Verif.StorageMap.C74_stays",
    "Verif.StorageMap.C74_remove",
    "Verif.StorageMap.C74_add",
    "Verif.StorageMap.C74_add_local",
    "Verif.StorageMap.C74_list",
    "Verif.StorageMap.C74_list_all",
    "Verif.StorageMap.C74_quiet_partial",
    "Verif.StorageMap.C74_custom_lock",
    "Verif.StorageMap.C74_poisoned",
    "Verif.StorageMap.C74_initialiser_fails",
    "Verif.StorageMap.C74_destructor_fails",
    "Verif.StorageMap.C74_kind_fails",
    "Verif.StorageMap.C74_off_thread_fails",
    "Verif.StorageMap.C74_keeps_old_fails",
    "Verif.StorageMap.C74_list_fails",
    "Verif.StorageMap.C74_error_id_fails"
   ],
   "note": "A panicking initialiser or destructor poisons the standard lock and the whole world (C74_initialiser_fails, C74_destructor_fails; not with a custom lock, C74_custom_lock); a unique viewed with the wrong wrapper panics (C74_kind_fails); add_unique_non_send off the thread adds nothing (C74_off_thread_fails); iter_storages leaves out what is borrowed (C74_list_fails)."
  },
  {
   "property": "C75",
   "status": "partial",
   "theorems": [
    "Verif.Conds.C75_storage_empty",
    "Verif.Conds.C75_storage_empty_unwind",
    "Verif.Conds.C75_missing_unique",
    "Verif.Conds.C75_entities_partial",
    "Verif.Conds.C75_system_run_if",
    "Verif.Conds.C75_system_skip_if",
    "Verif.Conds.C75_system_missing_unique",
    "Verif.Conds.C75_workload_run_if",
    "Verif.Conds.C75_workload_skip_if",
    "Verif.Conds.C75_borrowed_fails",
    "Verif.Conds.C75_non_send_fails",
    "Verif.Conds.C75_entities_fails",
    "Verif.Conds.C75_local_pool_fails"
   ],
   "note": "A view held anywhere makes the condition an error, not 'not empty' as documented (C75_borrowed_fails); components behind NonSend/NonSync/NonSendSync are not seen (C75_non_send_fails); the entity storage is not 'empty' after its entities are deleted (C75_entities_fails); with thread_local and a local thread pool the condition is always refused (C75_local_pool_fails)."
  },
  {
   "property": "C76",
   "status": "partial",
   "theorems": [
    "Verif.Sched.C76_info",
    "Verif.Sched.C76_every_system",
    "Verif.Sched.C76_batches",
    "Verif.Sched.C76_single",
    "Verif.Sched.C76_never_notSendSync",
    "Verif.Sched.C76_first_batch",
    "Verif.Sched.C76_numbers_partial",
    "Verif.Sched.C76_add",
    "Verif.Sched.C76_history_partial",
    "Verif.Sched.Ex.C76_witness",
    "Verif.Sched.Ex.C76_witness_numbers",
    "Verif.Sched.C76_unique_id_fails",
    "Verif.Sched.C76_references_fails",
    "Verif.Sched.C76_previous_batch_fails",
    "Verif.Sched.C76_unexplained_fails",
    "Verif.Sched.C76_renamed_fails"
   ],
   "note": "unique_id is not unique (C76_unique_id_fails); references to other systems use two numberings (C76_references_fails), which agree in a new world with distinct functions (C76_numbers_partial); the conflict need not be with the previous batch (C76_previous_batch_fails) and a system of a later batch may have no explanation (C76_unexplained_fails); renamed workloads lose their information (C76_renamed_fails), history theorem without rename (C76_history_partial)."
  },
  {
   "property": "C77",
   "status": "partial",
   "theorems": [
    "Verif.Reg.C77_borrowed_fails",
    "Verif.Reg.Demo.C77_not_before",
    "Verif.Reg.Demo.C77_condition_fails",
    "Verif.Reg.Demo.C77_system_condition_fails",
    "Verif.Reg.Demo.C77_clone_fails",
    "Verif.Reg.C77_enabled",
    "Verif.Reg.C77_collected",
    "Verif.Reg.C77_result",
    "Verif.Reg.C77_errors",
    "Verif.Reg.C77_kept",
    "Verif.Reg.C77_reach",
    "Verif.Reg.C77_run_partial"
   ],
   "note": "For systems of one function per type. Views of run_if conditions are not enabled (C77_condition_fails, C77_system_condition_fails); clone_storages_to into the world replaces storages and their flags (C77_clone_fails); when AllStorages or a storage is borrowed the addition fails half done (C77_borrowed_fails)."
  },
  {
   "property": "C78",
   "status": "partial",
   "theorems": [
    "Verif.Reg.C78_build_partial",
    "Verif.Reg.C78_same_partial",
    "Verif.Reg.C78_info",
    "Verif.Reg.C78_apply_result",
    "Verif.Reg.C78_tracking",
    "Verif.Reg.C78_run",
    "Verif.Reg.Demo.C78_apply_fails"
   ],
   "note": "For systems of one function per type. Running without apply_tracking is refused (C78_apply_fails), as documented."
  },
  {
   "property": "C79",
   "status": "partial",
   "theorems": [
    "Verif.Reg.C79_result",
    "Verif.Reg.C79_alone_partial",
    "Verif.Reg.C79_same_partial",
    "Verif.Reg.Demo.C79_numbers_fail"
   ],
   "note": "For systems of one function per type, known by their types and names (see C49, C60); the numbers in the information depend on the history (C79_numbers_fail)."
  },
  {
   "property": "C80",
   "status": "partial",
   "theorems": [
    "Verif.Sched.C80_model",
    "Verif.Sched.C80_same",
    "Verif.Sched.C80_equivalence",
    "Verif.Sched.C80_hash",
    "Verif.Sched.C80_clone",
    "Verif.Sched.C80_map_insert",
    "Verif.Sched.C80_map_remove",
    "Verif.Sched.C80_dedup_model",
    "Verif.Sched.C80_dedup",
    "Verif.Sched.C80_text_fails",
    "Verif.Sched.C80_shown_fails"
   ],
   "note": "Texts of different types (&str, String, Cow) are never equal (C80_text_fails)."
  },
  {
   "property": "C81",
   "status": "partial",
   "theorems": [
    "Verif.Ident.C81_storage",
    "Verif.Ident.C81_info",
    "Verif.Ident.C81_typeId_partial",
    "Verif.Ident.C81_pair",
    "Verif.Ident.C81_meaning",
    "Verif.Ident.C81_hash_distinct",
    "Verif.Ident.C81_order_fails",
    "Verif.Ident.C81_read_fails",
    "Verif.Ident.C81_written_fails",
    "Verif.Ident.C81_read_back",
    "Verif.Ident.C81_threadSafe_fails"
   ],
   "note": "The order with a TypeId contradicts the order of identifiers for custom ones (C81_order_fails); serialization drops the identifier (C81_read_fails). C81_hash_distinct: different keys are hashed from different data."
  },
  {
   "property": "C82",
   "status": "partial",
   "theorems": [
    "Verif.Memory.C82_table",
    "Verif.Memory.C82_used_partial",
    "Verif.Memory.C82_allocated",
    "Verif.Memory.C82_detail",
    "Verif.Memory.C82_table_kept",
    "Verif.Memory.C82_table_same",
    "Verif.Memory.C82_unique",
    "Verif.Memory.C82_entities",
    "Verif.Memory.C82_list",
    "Verif.Memory.C82_alive_fails",
    "Verif.Memory.C82_count_fails"
   ],
   "note": "Under NoTakeover for the log of deletions; the pages are never given back (C82_table_kept, C82_count_fails); the store of entities counts dead ones (C82_alive_fails). Uniques count as one value of their size (C82_unique). Pages for ids memory was reserved for with bulk_reserve included."
  },
  {
   "property": "C83",
   "status": "partial",
   "theorems": [
    "Verif.Sched.Told.C83_exact",
    "Verif.Sched.Told.C83_never_missed",
    "Verif.Sched.Told.C83_never_twice",
    "Verif.Sched.Told.C83_twice_fails"
   ],
   "note": "Each function at most once in a workload: with the same function twice the two share their memory (C83_twice_fails). Histories have no other thread that changes storages while a workload runs (see C23_race_fails). A run that fails counts as a run."
  },
  {
   "property": "C84",
   "status": "partial",
   "theorems": [
    "Verif.Borrow.C84_yes_or_partial",
    "Verif.Borrow.C84_exact_or_partial",
    "Verif.Borrow.C84_first_or_partial",
    "Verif.Borrow.C84_exact_partial",
    "Verif.Borrow.C84_yes_partial",
    "Verif.Borrow.C84_first_partial",
    "Verif.Borrow.C84_busy",
    "Verif.Borrow.C84_alarm_fails",
    "Verif.Borrow.C84_condition_fails",
    "Verif.Borrow.C84_later_fails"
   ],
   "note": "For systems without Option, UniqueOrDefaultView(Mut) and UniqueOrInitView(Mut): these raise false alarms (C84_alarm_fails). A yes is right for them as well (C84_yes_or_partial), and the answer is exact for the systems that need the uniques instead (C84_exact_or_partial, C84_first_or_partial; all without AllStoragesView(Mut) among the parameters). Views of run_if conditions are not looked at (C84_condition_fails). The answer is about the world before the run (C84_later_fails). Custom storages must not be named like a unique."
  },
  {
   "property": "C85",
   "status": "partial",
   "theorems": [
    "Verif.Sched.Told.C85_run_partial",
    "Verif.Sched.Told.C85_history_partial",
    "Verif.Sched.Told.C85_next_partial",
    "Verif.Sched.Told.C85_covered",
    "Verif.Sched.Told.C85_overlap_fails"
   ],
   "note": "Each function is a system of the workload at most once (C83_twice_fails). Conditions may read, write, have views of their own and use the answers they get; missing are systems that share a condition (C92_tracked_fails) or whose condition overlaps with another system or its conditions although their own views would allow both in one batch: the claim is false of these (C85_overlap_fails). C85_covered: conditions that only have views of their system are covered. What conditions are told is compared too."
  },
  {
   "property": "C86",
   "status": "proved",
   "theorems": [
    "Verif.WorldIter.C86_query_code",
    "Verif.WorldIter.C86_lives",
    "Verif.WorldIter.C86_reads",
    "Verif.WorldIter.C86_query",
    "Verif.WorldIter.C86_views"
   ],
   "note": "Worlds reached by the calls of WSpec.Reach; its comment lists the calls that are excluded because they leave components to dead entities (C41 shows what they do). In a tuple some member has to announce less than usize::MAX steps (Sails), which only `!` of a mutable view inside `|` can prevent. World::iter is C29_world_iter_fails."
  },
  {
   "property": "C87",
   "status": "partial",
   "theorems": [
    "Verif.C87_move_components",
    "Verif.C87_move_components_partial",
    "Verif.C87_move_entity",
    "Verif.C87_no_custom",
    "Verif.C87_clone_components",
    "Verif.C87_clone_entity",
    "Verif.C87_clone_components_partial",
    "Verif.C87_move_fails",
    "Verif.C87_clone_fails"
   ],
   "note": "False of the code for custom ids (C87_move_fails, C87_clone_fails): the four calls always insert into the ordinary storage of the type, so components arrive under another id, and of two components of one type in two custom storages one is lost. Proved: exactly what arrives for every assignment (C87_move_components, C87_move_entity); the claim for entities without components in custom storages (_partial). delete, strip, clear and clone_storages_to are C40, C42, C10 and C47, whose worlds have arbitrary ids."
  },
  {
   "property": "C88",
   "status": "partial",
   "theorems": [
    "Verif.C88_clone_storages_partial",
    "Verif.C88_local",
    "Verif.C88_local_fails"
   ],
   "note": "All worlds, clocks and views, for ordinary storages. False of the storages of thread-bound components (C88_local_fails): their clones keep the tracking that was turned on; C88_local is exactly what holds of them. Uniques: C28."
  },
  {
   "property": "C89",
   "status": "partial",
   "theorems": [
    "Verif.C89_since_partial",
    "Verif.C89_stable",
    "Verif.C89_fails"
   ],
   "note": "False of the first borrow that begins after the timestamp was taken (C89_fails): it is given the same number. C89_since_partial: exactly all later ones; C89_stable: repeated runs are told the same, for any timestamp. Without insertions over components of dead entities."
  },
  {
   "property": "C90",
   "status": "proved",
   "theorems": [
    "Verif.C90_par_strip",
    "Verif.C90_as_bulk_strip",
    "Verif.C90_calm",
    "Verif.C90_strips"
   ],
   "note": "C90_par_strip: any panics, any moment; C90_as_bulk_strip: equality with bulk_strip when nothing panicked; C90_calm, C90_strips: from all worlds of C41 (moves and clones included). Worlds of C73 for panics. par_strip only exists without the feature thread_local, so all storages are Send and Sync."
  },
  {
   "property": "C91",
   "status": "partial",
   "theorems": [
    "Verif.Custom.C91_borrow",
    "Verif.Custom.C91_granted",
    "Verif.Custom.C91_declared",
    "Verif.Custom.C91_holds_declared",
    "Verif.Custom.C91_tracking",
    "Verif.Custom.C91_system",
    "Verif.Custom.C91_iter_fields",
    "Verif.Custom.C91_iter",
    "Verif.Custom.C91_iter_left_out_fails",
    "Verif.Custom.C91_default_after_value_fails",
    "Verif.Custom.C91_only_default_fails"
   ],
   "note": "C91_borrow, C91_granted, C91_declared, C91_holds_declared, C91_tracking, C91_system, C91_iter_fields, C91_iter. Not so: C91_iter_left_out_fails (a field whose type is not written as a path is left out of the iteration without an error), C91_default_after_value_fails, C91_only_default_fails. A field with another type than View and ViewMut, such as a view of a unique, is refused by IntoIter unless it is skipped (C91_iter_fields). The types of the generated code are not modelled."
  },
  {
   "property": "C92",
   "status": "partial",
   "theorems": [
    "Verif.Sched.C92_parallel_partial",
    "Verif.Sched.C92_sequential_partial",
    "Verif.Sched.C92_written_fails",
    "Verif.Sched.C92_tracked_fails"
   ],
   "note": "C92_parallel_partial, C92_sequential_partial: so if the condition only reads and nothing in the whole workload changes what it reads. Not so in general: C92_written_fails (a system of the nested workload changes what the condition reads), C92_tracked_fails (the condition asks about changes; its memory is shared by the copies, and the first question uses the change up)."
  },
  {
   "property": "C93",
   "status": "proved",
   "theorems": [
    "Verif.Sched.Share.C93_safe",
    "Verif.Sched.Share.C93_begin",
    "Verif.Sched.Share.C93_refused",
    "Verif.Sched.Share.C93_while",
    "Verif.Sched.Share.C93_unchanged",
    "Verif.Sched.Share.C93_calls",
    "Verif.Sched.Share.C93_order",
    "Verif.Sched.Share.C93_run",
    "Verif.Sched.Share.C93_run_default",
    "Verif.Sched.Share.C93_contains",
    "Verif.Sched.Share.C93_fresh",
    "Verif.Sched.Share.C93_release"
   ],
   "note": "C93_begin, C93_refused, C93_while: who gets the workloads and who is refused. C93_unchanged, C93_safe: nothing changes under a run. C93_calls, C93_order, C93_fresh: one after the other, in an order that agrees with time. C93_run, C93_run_default, C93_contains: what the calls that look at workloads do and answer. C93_release: the borrow is given back. Runs are those of the build without the parallel feature; less than 2^63 - 2 calls are in progress at the same time (the bound of C38)."
  },
  {
   "property": "C94",
   "status": "partial",
   "theorems": [
    "Verif.Sched.C94_run",
    "Verif.Sched.C94_panic",
    "Verif.Sched.C94_skipped",
    "Verif.Sched.C94_total",
    "Verif.Sched.C94_sequential_partial",
    "Verif.Sched.C94_effects_partial"
   ],
   "note": "C94_run, C94_panic, C94_skipped, C94_total: for all workloads. C94_sequential_partial, C94_effects_partial: for systems that access only what they declare. What rayon does with panics is assumed as stated in the model. Panics in sequential runs are in C93."
  },
  {
   "property": "C95",
   "status": "proved",
   "theorems": [
    "Verif.C95_delete_components",
    "Verif.C95_add_component",
    "Verif.C95_add_entity",
    "Verif.C95_delete_entity",
    "Verif.C95_strip",
    "Verif.C95_retain_storage",
    "Verif.C95_remove",
    "Verif.C95_clear",
    "Verif.C95_move_components",
    "Verif.C95_move_entity",
    "Verif.C95_bulk_strip",
    "Verif.C95_delete_component",
    "Verif.C95_delete_any",
    "Verif.C95_clone_components_to",
    "Verif.C95_clone_entity_to",
    "Verif.C95_view_logs",
    "Verif.C95_view_flags",
    "Verif.C95_view_gone"
   ],
   "note": "For ids that are alive; ids that are not alive are in C41 - C46. bulk_add_entity is left out: with several columns its insertions are recorded at time 0 (C24_bulk_tuple_fails) and on_insertion is not called (C21_fails). delete_component of several types stops at the first one found, which it records (C95_delete_components)."
  },
  {
   "property": "C96",
   "status": "proved",
   "theorems": [
    "Verif.MutHandle.C96_run",
    "Verif.MutHandle.C96_untouched",
    "Verif.MutHandle.C96_storage",
    "Verif.MutHandle.C96_reported"
   ],
   "note": "C96_run, C96_untouched, C96_storage, C96_reported. The handle is used by one program from get to drop; that no other handle exists meanwhile is C39 and C69."
  },
  {
   "property": "C97",
   "status": "partial",
   "theorems": [
    "Verif.Sched.C97_systems",
    "Verif.Sched.C97_in_order_partial",
    "Verif.Sched.C97_functions",
    "Verif.Sched.C97_documented",
    "Verif.Sched.C97_empty_element_fails",
    "Verif.Sched.C97_modified_systems_fails",
    "Verif.Sched.C97_panic"
   ],
   "note": "C97_systems, C97_in_order_partial (elements with systems between the two), C97_functions (tuples of functions: full property), C97_panic, C97_documented. False of the code in two cases: an element without systems cuts the chain (C97_empty_element_fails); three modified systems make a cycle (C97_modified_systems_fails)."
  },
  {
   "property": "C98",
   "status": "partial",
   "theorems": [
    "Verif.StorageMap.C98_view",
    "Verif.StorageMap.C98_non_send_fails",
    "Verif.TrkSpec.C98_data",
    "Verif.TrkSpec.C98_tracking_fails",
    "Verif.TrkSpec.C98_reports_fails"
   ],
   "note": "C98_view and C98_data in full. The last sentence is false: all timestamps of such a view are 0, so insertions, writes, removals and deletions through it are never reported, a write hides an earlier one (C98_tracking_fails, for all states and views), and the view itself reports nothing (C98_reports_fails). Storages of components that are not Send or Sync cannot be viewed (C98_non_send_fails)."
  },
  {
   "property": "C99",
   "status": "partial",
   "theorems": [
    "Verif.Sched.C99_run_partial",
    "Verif.Sched.C99_panic_partial",
    "Verif.Sched.C99_named_fails",
    "Verif.Sched.C99_nested_fails",
    "Verif.Sched.C99_tuple_fails"
   ],
   "note": "C99_run_partial, C99_panic_partial: all workloads except those in which the result of a function that returns a named workload is converted with into_workload; then neither name works (C99_nested_fails). run_workload(f) does not find a named workload (C99_named_fails) nor one made by a function that returns a tuple (C99_tuple_fails)."
  },
  {
   "property": "C100",
   "status": "partial",
   "theorems": [
    "Verif.Worlds.C100_apart_partial",
    "Verif.Worlds.C100_reported_partial",
    "Verif.Worlds.C100_others",
    "Verif.Worlds.C100_exchange",
    "Verif.Worlds.C100_lost",
    "Verif.Worlds.C100_fails"
   ],
   "note": "C100_apart_partial, C100_reported_partial: all programs without exchanges. C100_others and C100_exchange: all programs. After an exchange the last sentence is false (C100_fails; C100_lost: for all programs, as long as the counter that came with the contents is not ahead of the last run of the system)."
  },
  {
   "property": "C101",
   "status": "partial",
   "theorems": [
    "Verif.IterSpec.C101_driver_partial",
    "Verif.IterSpec.C101_shortest_partial",
    "Verif.IterSpec.C101_filter_cost",
    "Verif.IterSpec.C101_flag_fails",
    "Verif.IterSpec.C101_world_hint",
    "Verif.IterSpec.C101_nested_partial",
    "Verif.IterSpec.C101_nested_fails"
   ],
   "note": "C101_shortest_partial: tuples of at least two members that are views, optional views or negated views, for any rounding. C101_driver_partial: with filters too, the first member that announces the least; a filter announces twice its length (C101_filter_cost). C101_nested_partial: tuples nested in any way, the storage that the announced costs determine (Leads). C101_world_hint: the upper bound of World::iter. Nested tuples do not always walk the shortest (C101_nested_fails). So with filters the shortest is not always picked (C101_flag_fails, with the f32 arithmetic of the code)."
  },
  {
   "property": "C102",
   "status": "proved",
   "theorems": [
    "Verif.C102_turned_on",
    "Verif.C102_again",
    "Verif.C102_view",
    "Verif.C102_then_added",
    "Verif.C102_get",
    "Verif.C102_then_deleted",
    "Verif.C102_then_removed"
   ],
   "note": "C102_turned_on: what is turned on and that nothing else changes, for all reachable worlds; C102_get: components; C102_view: what views report; C102_again: already on; C102_then_added, C102_then_deleted, C102_then_removed: add_component, delete_entity and remove afterwards. The documentation of track_all names insertion, deletion and removal only: it also turns modification tracking on."
  },
  {
   "property": "C103",
   "status": "proved",
   "theorems": [
    "Verif.Mix.C103_strip",
    "Verif.Mix.C103_delete_entity",
    "Verif.Mix.C103_bulk_strip",
    "Verif.Mix.C103_retain_storage",
    "Verif.Mix.C103_clear",
    "Verif.Mix.C103_move_entity",
    "Verif.Mix.C103_move_components",
    "Verif.Mix.C103_world_clears",
    "Verif.Mix.C103_program"
   ],
   "note": "C103_program: any program of the calls; C103_strip, C103_bulk_strip, C103_retain_storage, C103_delete_entity, C103_clear, C103_move_entity, C103_move_components, C103_world_clears: each call, also what user storages are told. Each says that where the call on entities and components alone returns, so does the call on the whole map, with the same answer. A user's move_component_from is not modelled."
  },
  {
   "property": "C104",
   "status": "proved",
   "theorems": [
    "Verif.Mix.C104_uniques",
    "Verif.Mix.C104_others",
    "Verif.Mix.C104_clone_of_clone"
   ],
   "note": "C104_uniques, C104_others: what is under every id afterwards; C104_clone_of_clone. Ids of one map are distinct, as in any map. The checks on threads of the feature thread_local are not part of this model."
  },
  {
   "property": "C105",
   "status": "proved",
   "theorems": [
    "Verif.Mix.C105_independent",
    "Verif.Mix.C105_added",
    "Verif.Mix.C105_removed"
   ],
   "note": "C105_independent: whole programs; C105_added, C105_removed: the two calls. Without borrowed views, whose part is in C74."
  }
 ]
}