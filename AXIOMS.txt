'Verif.Sched.C99_run_partial' depends on axioms: [propext, Classical.choice, Quot.sound] 
'Verif.Sched.C99_panic_partial' depends on axioms: [propext, Classical.choice, Quot.sound] 
'Verif.Sched.C99_named_fails' depends on axioms: [propext, Quot.sound] 
'Verif.Sched.C99_nested_fails' depends on axioms: [propext, Quot.sound] 
'Verif.Sched.C99_tuple_fails' depends on axioms: [propext, Quot.sound] 
'Verif.Borrow.C37_exclusive' depends on axioms: [propext, Classical.choice, Quot.sound] 
'Verif.Borrow.C37_counts' depends on axioms: [propext, Quot.sound] 
'Verif.Borrow.C38_no_guard' depends on axioms: [propext] 
'Verif.Borrow.C38_read' depends on axioms: [propext, Classical.choice, Quot.sound] 
'Verif.Borrow.C38_write' depends on axioms: [propext, Classical.choice, Quot.sound] 
'Verif.Borrow.C38_idle' depends on axioms: [propext, Classical.choice, Quot.sound] 
'Verif.Borrow.C38_no_panic' depends on axioms: [propext, Classical.choice, Quot.sound] 
'Verif.Borrow.C38_abort' depends on axioms: [propext, Classical.choice, Quot.sound] 
'Verif.Borrow.C57_batch_partial' depends on axioms: [propext, Classical.choice, Quot.sound] 
'Verif.Borrow.C57_acts' depends on axioms: [propext, Quot.sound] 
'Verif.Borrow.C57_non_sync_fails' depends on axioms: [propext, Quot.sound] 
'Verif.Borrow.C57_unit_fails' depends on axioms: [propext, Quot.sound] 
'Verif.Conds.C57_local_pool_fails' depends on axioms: [propext, Classical.choice, Quot.sound] 
'Verif.Borrow.C39_world_borrow' depends on axioms: [propext, Classical.choice, Quot.sound] 
'Verif.Borrow.C39_all_storages_borrow' depends on axioms: [propext, Classical.choice, Quot.sound] 
'Verif.Borrow.C39_system' depends on axioms: [propext, Classical.choice, Quot.sound] 
'Verif.Borrow.C39_drop' depends on axioms: [propext, Classical.choice, Quot.sound] 
'Verif.Borrow.C39_single' depends on axioms: [propext, Classical.choice, Quot.sound] 
'Verif.Borrow.C39_granted_all_storages' depends on axioms: [propext, Classical.choice, Quot.sound] 
'Verif.Borrow.C39_granted' depends on axioms: [propext, Classical.choice, Quot.sound] 
'Verif.Borrow.C39_granted_system' depends on axioms: [propext, Classical.choice, Quot.sound] 
'Verif.Borrow.C39_or_init' depends on axioms: [propext, Classical.choice, Quot.sound] 
'Verif.Borrow.C39_or_default' depends on axioms: [propext, Classical.choice, Quot.sound] 
'Verif.Borrow.C39_parameters' depends on axioms: [propext, Classical.choice, Quot.sound] 
'Verif.Borrow.C39_parameters_drop' depends on axioms: [propext, Classical.choice, Quot.sound] 
'Verif.Borrow.C39_or_init_granted' depends on axioms: [propext, Classical.choice, Quot.sound] 
'Verif.Borrow.C39_or_default_granted' depends on axioms: [propext, Classical.choice, Quot.sound] 
'Verif.Reg.C79_result' depends on axioms: [propext, Classical.choice, Quot.sound] 
'Verif.Reg.C79_alone_partial' depends on axioms: [propext, Classical.choice, Quot.sound] 
'Verif.Reg.C79_same_partial' depends on axioms: [propext, Classical.choice, Quot.sound] 
'Verif.Reg.Demo.C79_numbers_fail' depends on axioms: [propext, Quot.sound] 
'Verif.Reg.C78_build_partial' depends on axioms: [propext, Classical.choice, Quot.sound] 
'Verif.Reg.C78_same_partial' depends on axioms: [propext, Classical.choice, Quot.sound] 
'Verif.Reg.C78_info' depends on axioms: [propext, Quot.sound] 
'Verif.Reg.C78_apply_result' depends on axioms: [propext, Quot.sound] 
'Verif.Reg.C78_tracking' depends on axioms: [propext, Quot.sound] 
'Verif.Reg.C78_run' depends on axioms: [propext, Classical.choice, Quot.sound] 
'Verif.Reg.Demo.C78_apply_fails' depends on axioms: [propext, Quot.sound] 
'Verif.Reg.C77_borrowed_fails' depends on axioms: [propext, Classical.choice, Quot.sound] 
'Verif.Reg.Demo.C77_not_before' depends on axioms: [propext] 
'Verif.Reg.Demo.C77_condition_fails' depends on axioms: [propext, Quot.sound] 
'Verif.Reg.Demo.C77_system_condition_fails' depends on axioms: [propext, Quot.sound] 
'Verif.Reg.Demo.C77_clone_fails' depends on axioms: [propext, Quot.sound] 
'Verif.Reg.C77_enabled' depends on axioms: [propext, Quot.sound] 
'Verif.Reg.C77_collected' depends on axioms: [propext, Quot.sound] 
'Verif.Reg.C77_result' depends on axioms: [propext, Quot.sound] 
'Verif.Reg.C77_errors' depends on axioms: [propext, Quot.sound] 
'Verif.Reg.C77_kept' depends on axioms: [propext, Quot.sound] 
'Verif.Reg.C77_reach' depends on axioms: [propext, Quot.sound] 
'Verif.Reg.C77_run_partial' depends on axioms: [propext, Classical.choice, Quot.sound] 
'Verif.C88_clone_storages_partial' depends on axioms: [propext, Classical.choice, Quot.sound] 
'Verif.C88_local' depends on axioms: [propext, Classical.choice, Quot.sound] 
'Verif.C88_local_fails' depends on axioms: [propext] 
'Verif.C73_clone_storages' depends on axioms: [propext, Classical.choice, Quot.sound] 
'Verif.C73_clone_usable_partial' depends on axioms: [propext, Classical.choice, Quot.sound] 
'Verif.C73_calm_clone' depends on axioms: [propext, Quot.sound] 
'Verif.C73_clone_storages_fails' depends on axioms: [propext] 
'Verif.C73_move_entity_partial' depends on axioms: [propext, Classical.choice, Quot.sound] 
'Verif.C73_move_components' depends on axioms: [propext, Classical.choice, Quot.sound] 
'Verif.C73_move_no_copy' depends on axioms: [propext, Quot.sound] 
'Verif.C73_move_one_lost' depends on axioms: [propext, Quot.sound] 
'Verif.C73_move_returned' depends on axioms: [propext, Quot.sound] 
'Verif.C73_clone_entity' depends on axioms: [propext, Classical.choice, Quot.sound] 
'Verif.C73_clone_components' depends on axioms: [propext, Classical.choice, Quot.sound] 
'Verif.C73_calm_between' depends on axioms: [propext, Quot.sound] 
'Verif.C73_move_lost_fails' depends on axioms: [propext] 
'Verif.C73_move_orphan_fails' depends on axioms: [propext] 
'Verif.C73_reads' depends on axioms: [propext, Classical.choice, Quot.sound] 
'Verif.C73_handed_out' depends on axioms: [propext, Classical.choice, Quot.sound] 
'Verif.C73_add_entity' depends on axioms: [propext, Classical.choice, Quot.sound] 
'Verif.C73_add_component' depends on axioms: [propext, Classical.choice, Quot.sound] 
'Verif.C73_bulk_add_entity' depends on axioms: [propext, Classical.choice, Quot.sound] 
'Verif.C73_spawn' depends on axioms: [propext, Classical.choice, Quot.sound] 
'Verif.C73_view_insert' depends on axioms: [propext, Classical.choice, Quot.sound] 
'Verif.C73_delete_entity_partial' depends on axioms: [propext, Classical.choice, Quot.sound] 
'Verif.C73_delete_entity_returned' depends on axioms: [propext, Classical.choice, Quot.sound] 
'Verif.C73_strip' depends on axioms: [propext, Classical.choice, Quot.sound] 
'Verif.C73_retain_storage' depends on axioms: [propext, Classical.choice, Quot.sound] 
'Verif.C73_bulk_strip' depends on axioms: [propext, Classical.choice, Quot.sound] 
'Verif.C73_remove' depends on axioms: [propext, Classical.choice, Quot.sound] 
'Verif.C73_delete_component' depends on axioms: [propext, Classical.choice, Quot.sound] 
'Verif.C73_clear_partial' depends on axioms: [propext, Classical.choice, Quot.sound] 
'Verif.C73_delete_any' depends on axioms: [propext, Classical.choice, Quot.sound] 
'Verif.C73_calm' depends on axioms: [propext, Quot.sound] 
'Verif.C73_orphan_fails' depends on axioms: [propext] 
'Verif.C73_half_added_fails' depends on axioms: [propext] 
'Verif.C73_clear_fails' depends on axioms: [propext] 
'Verif.Sched.C59_under' depends on axioms: [propext, Classical.choice] 
'Verif.Sched.C59_conditions' depends on axioms: [propext, Quot.sound] 
'Verif.Sched.C59_workload_conditions' depends on axioms: [propext, Quot.sound] 
'Verif.Sched.C59_nested_after_run_if_fails' depends on axioms: [propext, Quot.sound] 
'Verif.Sched.C59_parallel' depends on axioms: [propext, Classical.choice, Quot.sound] 
'Verif.Sched.C59_system' does not depend on any axioms 
'Verif.Sched.C59_workload_false' depends on axioms: [propext, Classical.choice, Quot.sound] 
'Verif.Sched.C59_run_if' depends on axioms: [Quot.sound] 
'Verif.Sched.C59_skip_if' depends on axioms: [Quot.sound] 
'Verif.Sched.C59_workload_run_if' depends on axioms: [Quot.sound] 
'Verif.Sched.C59_workload_skip_if' depends on axioms: [Quot.sound] 
'Verif.C87_move_components' depends on axioms: [propext, Classical.choice, Quot.sound] 
'Verif.C87_move_components_partial' depends on axioms: [propext, Classical.choice, Quot.sound] 
'Verif.C87_move_entity' depends on axioms: [propext, Classical.choice, Quot.sound] 
'Verif.C87_no_custom' depends on axioms: [propext, Quot.sound] 
'Verif.C87_clone_components' depends on axioms: [propext, Classical.choice, Quot.sound] 
'Verif.C87_clone_entity' depends on axioms: [propext, Classical.choice, Quot.sound] 
'Verif.C87_clone_components_partial' depends on axioms: [propext, Classical.choice, Quot.sound] 
'Verif.C87_move_fails' depends on axioms: [propext] 
'Verif.C87_clone_fails' depends on axioms: [propext] 
'Verif.StorageMap.C98_view' depends on axioms: [propext, Classical.choice, Quot.sound] 
'Verif.StorageMap.C98_non_send_fails' depends on axioms: [propext, Classical.choice, Quot.sound] 
'Verif.TrkSpec.C98_data' depends on axioms: [propext, Classical.choice, Quot.sound] 
'Verif.TrkSpec.C98_tracking_fails' depends on axioms: [propext, Classical.choice, Quot.sound] 
'Verif.TrkSpec.C98_reports_fails' depends on axioms: [propext, Classical.choice, Quot.sound] 
'Verif.Custom.C91_borrow' depends on axioms: [propext, Classical.choice, Quot.sound] 
'Verif.Custom.C91_granted' depends on axioms: [propext, Classical.choice, Quot.sound] 
'Verif.Custom.C91_declared' depends on axioms: [propext, Quot.sound] 
'Verif.Custom.C91_holds_declared' depends on axioms: [propext, Classical.choice, Quot.sound] 
'Verif.Custom.C91_tracking' depends on axioms: [propext, Quot.sound] 
'Verif.Custom.C91_system' depends on axioms: [propext, Classical.choice, Quot.sound] 
'Verif.Custom.C91_iter_fields' depends on axioms: [propext, Classical.choice, Quot.sound] 
'Verif.Custom.C91_iter' depends on axioms: [propext, Classical.choice, Quot.sound] 
'Verif.Custom.C91_iter_left_out_fails' depends on axioms: [propext, Classical.choice, Quot.sound] 
'Verif.Custom.C91_default_after_value_fails' depends on axioms: [propext, Classical.choice, Quot.sound] 
'Verif.Custom.C91_only_default_fails' depends on axioms: [propext, Classical.choice, Quot.sound] 
'Verif.C95_delete_components' depends on axioms: [propext, Classical.choice, Quot.sound] 
'Verif.C95_add_component' depends on axioms: [propext, Classical.choice, Quot.sound] 
'Verif.C95_add_entity' depends on axioms: [propext, Classical.choice, Quot.sound] 
'Verif.C95_delete_entity' depends on axioms: [propext, Classical.choice, Quot.sound] 
'Verif.C95_strip' depends on axioms: [propext, Classical.choice, Quot.sound] 
'Verif.C95_retain_storage' depends on axioms: [propext, Classical.choice, Quot.sound] 
'Verif.C95_remove' depends on axioms: [propext, Classical.choice, Quot.sound] 
'Verif.C95_clear' depends on axioms: [propext, Classical.choice, Quot.sound] 
'Verif.C95_move_components' depends on axioms: [propext, Classical.choice, Quot.sound] 
'Verif.C95_move_entity' depends on axioms: [propext, Classical.choice, Quot.sound] 
'Verif.C95_bulk_strip' depends on axioms: [propext, Classical.choice, Quot.sound] 
'Verif.C95_delete_component' depends on axioms: [propext, Classical.choice, Quot.sound] 
'Verif.C95_delete_any' depends on axioms: [propext, Classical.choice, Quot.sound] 
'Verif.C95_clone_components_to' depends on axioms: [propext, Classical.choice, Quot.sound] 
'Verif.C95_clone_entity_to' depends on axioms: [propext, Classical.choice, Quot.sound] 
'Verif.C95_view_logs' depends on axioms: [propext, Quot.sound] 
'Verif.C95_view_flags' depends on axioms: [propext] 
'Verif.C95_view_gone' depends on axioms: [propext] 
'Verif.Entities.C03_ids_never_reused' depends on axioms: [propext, Classical.choice, Quot.sound] 
'Verif.Entities.C03_next_add_is_fresh' depends on axioms: [propext, Classical.choice, Quot.sound] 
'Verif.Entities.C04_alive_exact_partial' depends on axioms: [propext, Classical.choice, Quot.sound] 
'Verif.Entities.C04_alive_exact' depends on axioms: [propext, Classical.choice, Quot.sound] 
'Verif.Entities.C04_alive_spec_words' depends on axioms: [propext, Quot.sound] 
'Verif.Entities.C04_fails' depends on axioms: [propext, Classical.choice, Quot.sound] 
'Verif.Entities.C04_delete_other_unaffected' depends on axioms: [propext, Classical.choice, Quot.sound] 
'Verif.Entities.C05_iter_alive' depends on axioms: [propext, Quot.sound] 
'Verif.Entities.C05_iter_lasting' depends on axioms: [propext, Classical.choice, Quot.sound] 
'Verif.Entities.C05_iter_spec_partial' depends on axioms: [propext, Classical.choice, Quot.sound] 
'Verif.Entities.C06_total_partial' depends on axioms: [propext, Classical.choice, Quot.sound] 
'Verif.Entities.C06_fails' depends on axioms: [propext] 
'Verif.Entities.C06_clear_panics_fails' depends on axioms: [propext] 
'Verif.Entities.C07_slots_recycled_fifo' depends on axioms: [propext, Classical.choice, Quot.sound] 
'Verif.Entities.C08_bulk_add_partial' depends on axioms: [propext, Classical.choice, Quot.sound] 
'Verif.Entities.C08_fails' depends on axioms: [propext, Classical.choice, Quot.sound] 
'Verif.Entities.C09_spawn_partial' depends on axioms: [propext, Classical.choice, Quot.sound] 
'Verif.Entities.C09_spawn_refused_iff' depends on axioms: [propext, Classical.choice, Quot.sound] 
'Verif.Entities.C09_dead_generation_fails' depends on axioms: [propext] 
'Verif.Entities.C10_clear_partial' depends on axioms: [propext, Classical.choice, Quot.sound] 
'Verif.Entities.C10_callback_fails' depends on axioms: [propext] 
'Verif.Entities.C10_duplicate_fails' depends on axioms: [propext] 
'Verif.Entities.C11_callback_log' depends on axioms: [propext, Classical.choice, Quot.sound] 
'Verif.Bits.C01_roundtrip' depends on axioms: [propext, Classical.choice, Quot.sound] 
'Verif.Bits.C01_injective' depends on axioms: [propext, Quot.sound] 
'Verif.Bits.C01_eq_iff' depends on axioms: [propext, Classical.choice, Quot.sound] 
'Verif.Bits.C01_from_inner_unvalidated_fails' depends on axioms: [propext, Quot.sound] 
'Verif.Bits.C01_pair_model_refines_words' depends on axioms: [propext, Classical.choice, Quot.sound] 
'Verif.Bits.C01_constructors_refine' depends on axioms: [propext, Classical.choice, Quot.sound] 
'Verif.Bits.C02_human_roundtrip' depends on axioms: [propext, Classical.choice, Quot.sound] 
'Verif.Bits.C02_binary_roundtrip' depends on axioms: [propext] 
'Verif.Bits.C02_injective' depends on axioms: [propext, Classical.choice, Quot.sound] 
'Verif.Bits.C02_binary_decoder_unvalidated_fails' depends on axioms: [propext, Quot.sound] 
'Verif.C40_exact' depends on axioms: [propext, Classical.choice, Quot.sound] 
'Verif.C40_delete_entity_partial' depends on axioms: [propext, Classical.choice, Quot.sound] 
'Verif.C40_exhausted_fails' depends on axioms: [propext] 
'Verif.C45_exact' depends on axioms: [propext, Classical.choice, Quot.sound] 
'Verif.C45_exhausted_fails' depends on axioms: [propext] 
'Verif.C45_delete_any_partial' depends on axioms: [propext, Classical.choice, Quot.sound] 
'Verif.C46_move_exact' depends on axioms: [propext, Classical.choice, Quot.sound] 
'Verif.C46_move_refused' depends on axioms: [propext, Classical.choice, Quot.sound] 
'Verif.C46_move_accepted' depends on axioms: [propext, Classical.choice, Quot.sound] 
'Verif.C46_move_entity_partial' depends on axioms: [propext, Classical.choice, Quot.sound] 
'Verif.C46_move_dead' depends on axioms: [propext] 
'Verif.C46_move_refused_fails' depends on axioms: [propext] 
'Verif.C46_move_over_alive_fails' depends on axioms: [propext] 
'Verif.C46_move_merges_fails' depends on axioms: [propext] 
'Verif.C46_move_components' depends on axioms: [propext, Classical.choice, Quot.sound] 
'Verif.C47_clone_entity_exact' depends on axioms: [propext, Classical.choice, Quot.sound] 
'Verif.C47_clone_entity_refused' depends on axioms: [propext, Quot.sound] 
'Verif.C47_clone_entity_accepted' depends on axioms: [propext, Classical.choice, Quot.sound] 
'Verif.C47_register_clone' depends on axioms: [propext, Classical.choice, Quot.sound] 
'Verif.C47_clone_entity_partial' depends on axioms: [propext, Classical.choice, Quot.sound] 
'Verif.C47_clone_entity_merges_fails' depends on axioms: [propext] 
'Verif.C47_clone_components' depends on axioms: [propext, Classical.choice, Quot.sound] 
'Verif.C47_clone_storages' depends on axioms: [propext, Classical.choice, Quot.sound] 
'Verif.C47_clone_world' depends on axioms: [propext, Classical.choice, Quot.sound] 
'Verif.C47_clone_of_clone_fails' depends on axioms: [propext] 
'Verif.GetComp.C70_world_get' depends on axioms: [propext, Classical.choice, Quot.sound] 
'Verif.GetComp.C70_world_get_error' depends on axioms: [propext, Classical.choice, Quot.sound] 
'Verif.GetComp.C70_all_storages_get' depends on axioms: [propext, Classical.choice, Quot.sound] 
'Verif.GetComp.C70_drop' depends on axioms: [propext, Classical.choice, Quot.sound] 
'Verif.GetComp.C70_read' depends on axioms: [propext] 
'Verif.GetComp.C70_write' depends on axioms: [propext, Classical.choice, Quot.sound] 
'Verif.GetComp.C70_touch' depends on axioms: [propext, Classical.choice, Quot.sound] 
'Verif.GetComp.C70_map' depends on axioms: [propext, Classical.choice, Quot.sound] 
'Verif.Guards.C69_partial' depends on axioms: [propext, Classical.choice, Quot.sound] 
'Verif.Guards.C69_fails' depends on axioms: [propext, Classical.choice, Quot.sound] 
'Verif.Guards.C69_escape_fails' depends on axioms: [propext, Classical.choice, Quot.sound] 
'Verif.Guards.C69_escape_mut_fails' depends on axioms: [propext, Classical.choice, Quot.sound] 
'Verif.Ident.C81_storage' depends on axioms: [propext, Classical.choice, Quot.sound] 
'Verif.Ident.C81_info' depends on axioms: [propext, Classical.choice, Quot.sound] 
'Verif.Ident.C81_typeId_partial' depends on axioms: [propext] 
'Verif.Ident.C81_pair' depends on axioms: [propext] 
'Verif.Ident.C81_meaning' depends on axioms: [propext] 
'Verif.Ident.C81_hash_distinct' depends on axioms: [propext] 
'Verif.Ident.C81_order_fails' does not depend on any axioms 
'Verif.Ident.C81_read_fails' depends on axioms: [propext] 
'Verif.Ident.C81_written_fails' depends on axioms: [propext] 
'Verif.Ident.C81_read_back' depends on axioms: [propext, Quot.sound] 
'Verif.Ident.C81_threadSafe_fails' does not depend on any axioms 
'Verif.IterSpec.C29_query_partial' depends on axioms: [propext, Classical.choice, Quot.sound] 
'Verif.IterSpec.C29_views_partial' depends on axioms: [propext, Classical.choice, Quot.sound] 
'Verif.IterSpec.C29_any_driver_partial' depends on axioms: [propext, Classical.choice, Quot.sound] 
'Verif.IterSpec.C29_world_nested_partial' depends on axioms: [propext, Classical.choice, Quot.sound] 
'Verif.IterSpec.C29_world_alone' depends on axioms: [propext, Classical.choice, Quot.sound] 
'Verif.IterSpec.C29_world_flat' depends on axioms: [propext] 
'Verif.IterSpec.C29_world_iter_partial' depends on axioms: [propext, Classical.choice, Quot.sound] 
'Verif.IterSpec.C29_world_iter_fails' depends on axioms: [propext, Quot.sound] 
'Verif.IterSpec.C29_world_iter_oob_fails' depends on axioms: [propext, Quot.sound] 
'Verif.IterSpec.C29_rounding' depends on axioms: [propext, Classical.choice, Quot.sound] 
'Verif.IterSpec.C29_sails' depends on axioms: [propext, Classical.choice, Quot.sound] 
'Verif.IterSpec.C29_query_code_partial' depends on axioms: [propext, Classical.choice, Quot.sound] 
'Verif.IterSpec.C29_takeover_fails' depends on axioms: [propext] 
'Verif.IterSpec.C29_takeover_oob_fails' depends on axioms: [propext] 
'Verif.IterSpec.C30_not_partial' depends on axioms: [propext, Classical.choice, Quot.sound] 
'Verif.IterSpec.C30_optional_partial' depends on axioms: [propext, Classical.choice, Quot.sound] 
'Verif.IterSpec.C30_not_anywhere_partial' depends on axioms: [propext, Classical.choice, Quot.sound] 
'Verif.IterSpec.C30_optional_anywhere_partial' depends on axioms: [propext, Classical.choice, Quot.sound] 
'Verif.IterSpec.C30_exclusive_fails' depends on axioms: [propext, Quot.sound] 
'Verif.IterSpec.C30_takeover_fails' depends on axioms: [propext] 
'Verif.IterSpec.C31_or_fold_partial' depends on axioms: [propext, Classical.choice, Quot.sound] 
'Verif.IterSpec.C31_next_fails' depends on axioms: [propext, Quot.sound] 
'Verif.IterSpec.C31_next_back_fails' depends on axioms: [propext, Quot.sound] 
'Verif.IterSpec.C31_nested_fails' depends on axioms: [propext, Quot.sound] 
'Verif.IterSpec.C31_ids_fails' depends on axioms: [propext, Quot.sound] 
'Verif.IterSpec.C31_not_inside_fails' depends on axioms: [propext, Quot.sound] 
'Verif.IterSpec.C31_both_ends_partial' depends on axioms: [propext, Classical.choice, Quot.sound] 
'Verif.IterSpec.C31_exclusive_fails' depends on axioms: [propext] 
'Verif.IterSpec.C31_takeover_fails' depends on axioms: [propext] 
'Verif.IterSpec.C32_flag_partial' depends on axioms: [propext, Classical.choice, Quot.sound] 
'Verif.IterSpec.C32_not_flag_partial' depends on axioms: [propext, Classical.choice, Quot.sound] 
'Verif.IterSpec.C32_untracked_fails' depends on axioms: [propext, Quot.sound] 
'Verif.IterSpec.C32_takeover_fails' depends on axioms: [propext] 
'Verif.WorldIter.C32_view_partial' depends on axioms: [propext, Classical.choice, Quot.sound] 
'Verif.IterSpec.C34_both_ends_partial' depends on axioms: [propext, Classical.choice, Quot.sound] 
'Verif.IterSpec.C34_once' depends on axioms: [propext] 
'Verif.IterSpec.C34_exhausted' depends on axioms: [propext] 
'Verif.IterSpec.C34_or_order_fails' depends on axioms: [propext, Quot.sound] 
'Verif.IterSpec.C34_takeover_fails' depends on axioms: [propext] 
'Verif.IterSpec.C33_next_partial' depends on axioms: [propext, Classical.choice, Quot.sound] 
'Verif.IterSpec.C33_next_or_partial' depends on axioms: [propext, Classical.choice, Quot.sound] 
'Verif.IterSpec.C33_fold_partial' depends on axioms: [propext, Classical.choice, Quot.sound] 
'Verif.IterSpec.C33_rfold_partial' depends on axioms: [propext, Classical.choice, Quot.sound] 
'Verif.IterSpec.C33_next_back_fails' depends on axioms: [propext, Quot.sound] 
'Verif.IterSpec.C33_next_back_wrong_id_fails' depends on axioms: [propext, Quot.sound] 
'Verif.IterSpec.C33_or_fold_fails' depends on axioms: [propext, Quot.sound] 
'Verif.IterSpec.C33_takeover_fails' depends on axioms: [propext] 
'Verif.IterSpec.C35_split_lengths' depends on axioms: [propext, Classical.choice, Quot.sound] 
'Verif.IterSpec.C35_split_at_fails' does not depend on any axioms 
'Verif.IterSpec.C35_splits_partial' depends on axioms: [propext, Classical.choice, Quot.sound] 
'Verif.IterSpec.C35_takeover_fails' depends on axioms: [propext] 
'Verif.IterSpec.C36_bounds_partial' depends on axioms: [propext, Classical.choice, Quot.sound] 
'Verif.IterSpec.C36_or_partial' depends on axioms: [propext, Classical.choice, Quot.sound] 
'Verif.IterSpec.C36_exact_partial' depends on axioms: [propext, Classical.choice, Quot.sound] 
'Verif.Sched.C80_model' depends on axioms: [propext, Classical.choice, Quot.sound] 
'Verif.Sched.C80_same' depends on axioms: [propext, Classical.choice, Quot.sound] 
'Verif.Sched.C80_equivalence' depends on axioms: [propext, Classical.choice, Quot.sound] 
'Verif.Sched.C80_hash' depends on axioms: [propext, Classical.choice, Quot.sound] 
'Verif.Sched.C80_clone' depends on axioms: [propext, Classical.choice, Quot.sound] 
'Verif.Sched.C80_map_insert' depends on axioms: [propext, Classical.choice, Quot.sound] 
'Verif.Sched.C80_map_remove' depends on axioms: [propext, Classical.choice, Quot.sound] 
'Verif.Sched.C80_dedup_model' depends on axioms: [propext, Classical.choice, Quot.sound] 
'Verif.Sched.C80_dedup' depends on axioms: [propext, Classical.choice, Quot.sound] 
'Verif.Sched.C80_text_fails' depends on axioms: [propext, Classical.choice, Quot.sound] 
'Verif.Sched.C80_shown_fails' depends on axioms: [propext] 
'Verif.C17_since_partial' depends on axioms: [propext, Classical.choice, Quot.sound] 
'Verif.C17_view_since_partial' depends on axioms: [propext, Classical.choice, Quot.sound] 
'Verif.SparseSet.C17_storage_clears_both' depends on axioms: [propext] 
'Verif.SparseSet.C17_fails' depends on axioms: [propext] 
'Verif.SparseSet.C17_view_clears_removed_partial' depends on axioms: [propext] 
'Verif.SparseSet.C17_one_log' depends on axioms: [propext] 
'Verif.C27_since_partial' depends on axioms: [propext, Classical.choice, Quot.sound] 
'Verif.SparseSet.C27_older_than_partial' depends on axioms: [propext, Quot.sound] 
'Verif.SparseSet.C27_one_log_partial' depends on axioms: [propext] 
'Verif.SparseSet.C27_fails' depends on axioms: [propext] 
'Verif.Memory.C82_table' depends on axioms: [propext, Classical.choice, Quot.sound] 
'Verif.Memory.C82_used_partial' depends on axioms: [propext, Classical.choice, Quot.sound] 
'Verif.Memory.C82_allocated' depends on axioms: [propext, Quot.sound] 
'Verif.Memory.C82_detail' does not depend on any axioms 
'Verif.Memory.C82_table_kept' depends on axioms: [propext, Classical.choice, Quot.sound] 
'Verif.Memory.C82_table_same' depends on axioms: [propext, Classical.choice, Quot.sound] 
'Verif.Memory.C82_unique' does not depend on any axioms 
'Verif.Memory.C82_entities' depends on axioms: [propext, Classical.choice, Quot.sound] 
'Verif.Memory.C82_list' depends on axioms: [propext, Classical.choice, Quot.sound] 
'Verif.Memory.C82_alive_fails' depends on axioms: [propext] 
'Verif.Memory.C82_count_fails' depends on axioms: [propext, Classical.choice, Quot.sound] 
'Verif.Mix.C103_strip' depends on axioms: [propext] 
'Verif.Mix.C103_delete_entity' depends on axioms: [propext, Quot.sound] 
'Verif.Mix.C103_bulk_strip' depends on axioms: [propext] 
'Verif.Mix.C103_retain_storage' depends on axioms: [propext] 
'Verif.Mix.C103_clear' depends on axioms: [propext] 
'Verif.Mix.C103_move_entity' depends on axioms: [propext, Quot.sound] 
'Verif.Mix.C103_move_components' depends on axioms: [propext, Quot.sound] 
'Verif.Mix.C103_world_clears' depends on axioms: [propext] 
'Verif.Mix.C103_program' depends on axioms: [propext, Quot.sound] 
'Verif.Mix.C104_uniques' depends on axioms: [propext, Quot.sound] 
'Verif.Mix.C104_others' depends on axioms: [propext, Quot.sound] 
'Verif.Mix.C104_clone_of_clone' depends on axioms: [propext, Quot.sound] 
'Verif.Mix.C105_independent' depends on axioms: [propext, Quot.sound] 
'Verif.Mix.C105_added' depends on axioms: [propext] 
'Verif.Mix.C105_removed' depends on axioms: [propext] 
'Verif.MutHandle.C96_run' depends on axioms: [propext, Classical.choice, Quot.sound] 
'Verif.MutHandle.C96_untouched' depends on axioms: [propext, Classical.choice, Quot.sound] 
'Verif.MutHandle.C96_storage' depends on axioms: [propext, Classical.choice, Quot.sound] 
'Verif.MutHandle.C96_reported' depends on axioms: [propext, Classical.choice, Quot.sound] 
'Verif.Sched.C92_parallel_partial' depends on axioms: [propext, Classical.choice, Quot.sound] 
'Verif.Sched.C92_sequential_partial' depends on axioms: [propext, Classical.choice, Quot.sound] 
'Verif.Sched.C92_written_fails' depends on axioms: [propext, Quot.sound] 
'Verif.Sched.C92_tracked_fails' depends on axioms: [propext, Quot.sound] 
'Verif.Borrow.C84_yes_or_partial' depends on axioms: [propext, Classical.choice, Quot.sound] 
'Verif.Borrow.C84_exact_or_partial' depends on axioms: [propext, Classical.choice, Quot.sound] 
'Verif.Borrow.C84_first_or_partial' depends on axioms: [propext, Classical.choice, Quot.sound] 
'Verif.Borrow.C84_exact_partial' depends on axioms: [propext, Classical.choice, Quot.sound] 
'Verif.Borrow.C84_yes_partial' depends on axioms: [propext, Classical.choice, Quot.sound] 
'Verif.Borrow.C84_first_partial' depends on axioms: [propext, Classical.choice, Quot.sound] 
'Verif.Borrow.C84_busy' depends on axioms: [propext, Classical.choice, Quot.sound] 
'Verif.Borrow.C84_alarm_fails' depends on axioms: [propext] 
'Verif.Borrow.C84_condition_fails' depends on axioms: [propext] 
'Verif.Borrow.C84_later_fails' depends on axioms: [propext] 
'Verif.C90_par_strip' depends on axioms: [propext, Classical.choice, Quot.sound] 
'Verif.C90_as_bulk_strip' depends on axioms: [propext, Classical.choice, Quot.sound] 
'Verif.C90_calm' depends on axioms: [propext, Quot.sound] 
'Verif.C90_strips' depends on axioms: [propext, Classical.choice, Quot.sound] 
'Verif.Sched.C56_total' depends on axioms: [propext, Classical.choice, Quot.sound] 
'Verif.Sched.C56_progress' depends on axioms: [propext, Classical.choice, Quot.sound] 
'Verif.Sched.C56_terminates' depends on axioms: [propext] 
'Verif.Sched.C56_parallel_sequential_partial' depends on axioms: [propext, Classical.choice, Quot.sound] 
'Verif.Sched.C56_own_views_partial' depends on axioms: [propext, Classical.choice, Quot.sound] 
'Verif.Sched.C56_deterministic_partial' depends on axioms: [propext, Classical.choice, Quot.sound] 
'Verif.Sched.C56_disciplined' depends on axioms: [propext] 
'Verif.Sched.C56_condition_fails' depends on axioms: [propext, Quot.sound] 
'Verif.Sched.C60_parallel_partial' depends on axioms: [propext, Classical.choice, Quot.sound] 
'Verif.Sched.C60_own_views_partial' depends on axioms: [propext, Classical.choice, Quot.sound] 
'Verif.Sched.C60_parallel' depends on axioms: [propext, Classical.choice, Quot.sound] 
'Verif.Sched.C60_first_error' does not depend on any axioms 
'Verif.Sched.C60_named' does not depend on any axioms 
'Verif.Sched.C60_ok_all' depends on axioms: [propext] 
'Verif.Sched.C60_sequential' depends on axioms: [propext, Classical.choice, Quot.sound] 
'Verif.Sched.C60_sequential_own' depends on axioms: [propext, Classical.choice, Quot.sound] 
'Verif.Sched.C60_name_fails' depends on axioms: [propext, Quot.sound] 
'Verif.Sched.C94_run' depends on axioms: [propext, Classical.choice, Quot.sound] 
'Verif.Sched.C94_panic' depends on axioms: [propext, Classical.choice, Quot.sound] 
'Verif.Sched.C94_skipped' depends on axioms: [propext, Quot.sound] 
'Verif.Sched.C94_total' depends on axioms: [propext, Classical.choice, Quot.sound] 
'Verif.Sched.C94_sequential_partial' depends on axioms: [propext, Classical.choice, Quot.sound] 
'Verif.Sched.C94_effects_partial' depends on axioms: [propext, Classical.choice, Quot.sound] 
'Verif.Sched.C61_contains' depends on axioms: [propext, Classical.choice, Quot.sound] 
'Verif.Sched.C61_add_used' depends on axioms: [propext, Classical.choice, Quot.sound] 
'Verif.Sched.C61_add_result' depends on axioms: [propext, Classical.choice, Quot.sound] 
'Verif.Sched.C61_set_default' depends on axioms: [propext, Classical.choice, Quot.sound] 
'Verif.Sched.C61_run' depends on axioms: [propext, Classical.choice, Quot.sound] 
'Verif.Sched.C61_run_own' depends on axioms: [propext, Classical.choice, Quot.sound] 
'Verif.Sched.C61_run_default' depends on axioms: [propext, Classical.choice, Quot.sound] 
'Verif.Sched.C61_default_first' depends on axioms: [propext, Classical.choice, Quot.sound] 
'Verif.Sched.C61_default_set' depends on axioms: [propext, Classical.choice, Quot.sound] 
'Verif.Sched.C61_rename' depends on axioms: [propext, Classical.choice, Quot.sound] 
'Verif.Sched.C61_rename_overwrites_fails' depends on axioms: [propext, Quot.sound] 
'Verif.Sched.C61_failed_add_leaves_systems_fails' depends on axioms: [propext, Quot.sound] 
'Verif.Sched.C55_said' depends on axioms: [propext, Classical.choice] 
'Verif.Sched.C55_barrier_outside_fails' depends on axioms: [propext, Quot.sound] 
'Verif.Sched.C55_merge_systems' depends on axioms: [propext, Quot.sound] 
'Verif.Sched.C55_merge_spent' depends on axioms: [propext] 
'Verif.Sched.C55_merge_barriers' depends on axioms: [propext, Quot.sound] 
'Verif.Sched.C55_merge_keeps_left' depends on axioms: [propext, Quot.sound] 
'Verif.Sched.C55_merge_keeps_right' depends on axioms: [propext, Quot.sound] 
'Verif.Sched.C55_append' depends on axioms: [propext, Quot.sound] 
'Verif.Sched.C55_tuple' depends on axioms: [propext, Quot.sound] 
'Verif.Sched.C55_append_barriers_fails' depends on axioms: [propext, Quot.sound] 
'Verif.Sched.C55_append_run_if_fails' does not depend on any axioms 
'Verif.Sched.C51_asked' depends on axioms: [propext, Classical.choice, Quot.sound] 
'Verif.Sched.C51_explicit_order' depends on axioms: [propext, Classical.choice, Quot.sound] 
'Verif.Sched.C51_one_batch' depends on axioms: [propext, Classical.choice, Quot.sound] 
'Verif.Sched.C51_append_leftover_fails' depends on axioms: [propext, Quot.sound] 
'Verif.Sched.C51_into_sequential_fails' depends on axioms: [propext, Quot.sound] 
'Verif.Sched.C52_asked' depends on axioms: [propext, Classical.choice, Quot.sound] 
'Verif.Sched.C52_insertion_order' depends on axioms: [propext, Classical.choice, Quot.sound] 
'Verif.Sched.C52_conflicting_insertion_order' depends on axioms: [propext, Classical.choice, Quot.sound] 
'Verif.Sched.C53_asked' depends on axioms: [propext, Classical.choice, Quot.sound] 
'Verif.Sched.C53_ok_acyclic' depends on axioms: [propext, Classical.choice, Quot.sound] 
'Verif.Sched.C53_error_cyclic' depends on axioms: [propext, Classical.choice, Quot.sound] 
'Verif.Sched.C53_cycle_iff' depends on axioms: [propext, Classical.choice, Quot.sound] 
'Verif.Sched.C53_total' depends on axioms: [propext, Classical.choice, Quot.sound] 
'Verif.Sched.C53_explicit_only_fails' depends on axioms: [propext, Quot.sound] 
'Verif.Sched.C53_extend_fails' depends on axioms: [propext, Quot.sound] 
'Verif.Sched.C54_asked_in' depends on axioms: [propext, Classical.choice, Quot.sound] 
'Verif.Sched.C54_asked_before' depends on axioms: [propext, Classical.choice, Quot.sound] 
'Verif.Sched.C54_asked_after_partial' depends on axioms: [propext, Classical.choice, Quot.sound] 
'Verif.Sched.C54_require_in_exact' depends on axioms: [propext, Classical.choice, Quot.sound] 
'Verif.Sched.C54_require_before_partial' depends on axioms: [propext, Classical.choice, Quot.sound] 
'Verif.Sched.C54_require_before_sound' depends on axioms: [propext, Classical.choice, Quot.sound] 
'Verif.Sched.C54_require_before_fails' depends on axioms: [propext, Quot.sound] 
'Verif.Sched.C54_require_after_partial' depends on axioms: [propext, Classical.choice, Quot.sound] 
'Verif.Sched.C54_require_after_fails' depends on axioms: [propext, Quot.sound] 
'Verif.WorldIter.C86_query_code' depends on axioms: [propext, Classical.choice, Quot.sound] 
'Verif.WorldIter.C86_lives' depends on axioms: [propext, Classical.choice, Quot.sound] 
'Verif.WorldIter.C86_reads' depends on axioms: [propext, Classical.choice, Quot.sound] 
'Verif.WorldIter.C86_query' depends on axioms: [propext, Classical.choice, Quot.sound] 
'Verif.WorldIter.C86_views' depends on axioms: [propext, Classical.choice, Quot.sound] 
'Verif.Sched.C49_each_system_once' depends on axioms: [propext, Classical.choice, Quot.sound] 
'Verif.Sched.C49_sequential_partial' depends on axioms: [propext, Classical.choice, Quot.sound] 
'Verif.Sched.C49_parallel_partial' depends on axioms: [propext, Classical.choice, Quot.sound] 
'Verif.Sched.C49_batches_agree' depends on axioms: [propext, Classical.choice, Quot.sound] 
'Verif.Sched.C49_workload_condition' depends on axioms: [propext, Classical.choice, Quot.sound] 
'Verif.Sched.C49_table' depends on axioms: [propext, Quot.sound] 
'Verif.Sched.C49_sequential_fails' depends on axioms: [propext, Quot.sound] 
'Verif.Sched.C50_batch_no_conflict' depends on axioms: [propext, Classical.choice, Quot.sound] 
'Verif.Sched.Share.C93_safe' depends on axioms: [propext, Classical.choice, Quot.sound] 
'Verif.Sched.Share.C93_begin' depends on axioms: [propext, Classical.choice, Quot.sound] 
'Verif.Sched.Share.C93_refused' depends on axioms: [propext, Classical.choice, Quot.sound] 
'Verif.Sched.Share.C93_while' depends on axioms: [propext, Classical.choice, Quot.sound] 
'Verif.Sched.Share.C93_unchanged' depends on axioms: [propext, Classical.choice, Quot.sound] 
'Verif.Sched.Share.C93_calls' depends on axioms: [propext, Classical.choice, Quot.sound] 
'Verif.Sched.Share.C93_order' depends on axioms: [propext, Classical.choice, Quot.sound] 
'Verif.Sched.Share.C93_run' depends on axioms: [propext, Classical.choice, Quot.sound] 
'Verif.Sched.Share.C93_run_default' depends on axioms: [propext, Classical.choice, Quot.sound] 
'Verif.Sched.Share.C93_contains' depends on axioms: [propext, Classical.choice, Quot.sound] 
'Verif.Sched.Share.C93_fresh' depends on axioms: [propext, Quot.sound] 
'Verif.Sched.Share.C93_release' depends on axioms: [propext, Classical.choice, Quot.sound] 
'Verif.Sched.C97_systems' depends on axioms: [propext, Quot.sound] 
'Verif.Sched.C97_in_order_partial' depends on axioms: [propext, Classical.choice, Quot.sound] 
'Verif.Sched.C97_functions' depends on axioms: [propext, Classical.choice, Quot.sound] 
'Verif.Sched.C97_documented' depends on axioms: [propext, Quot.sound] 
'Verif.Sched.C97_empty_element_fails' depends on axioms: [propext, Quot.sound] 
'Verif.Sched.C97_modified_systems_fails' depends on axioms: [propext, Quot.sound] 
'Verif.Sched.C97_panic' depends on axioms: [propext, Quot.sound] 
'Verif.Serde.C62_entity_id' depends on axioms: [propext, Quot.sound] 
'Verif.Serde.C62_binary_form' depends on axioms: [propext, Classical.choice, Quot.sound] 
'Verif.Serde.C62_malformed_id_fails' depends on axioms: [propext] 
'Verif.Serde.C62_with_id' depends on axioms: [propext, Classical.choice, Quot.sound] 
'Verif.Serde.C62_view_partial' depends on axioms: [propext, Classical.choice, Quot.sound] 
'Verif.Serde.C62_view_fresh_partial' depends on axioms: [propext, Classical.choice, Quot.sound] 
'Verif.Serde.C62_view_fails' depends on axioms: [propext] 
'Verif.Serde.C62_typed_bincode_fails' depends on axioms: [propext] 
'Verif.Serde.C62_error_keeps_fails' depends on axioms: [propext] 
'Verif.Serde.C62_entities' depends on axioms: [propext, Classical.choice, Quot.sound] 
'Verif.Serde.C62_entities_refused' depends on axioms: [propext] 
'Verif.Serde.C62_entities_stopped' depends on axioms: [propext, Quot.sound] 
'Verif.Serde.C62_entities_bincode_fails' does not depend on any axioms 
'Verif.Serde.C62_world' depends on axioms: [propext, Classical.choice, Quot.sound] 
'Verif.Serde.C62_stale_id_fails' depends on axioms: [propext] 
'Verif.Serde.C62_unique' depends on axioms: [propext] 
'Verif.Serde.C62_unique_refused' depends on axioms: [propext] 
'Verif.Serde.C62_unique_or_init_fails' depends on axioms: [propext] 
'Verif.Serde.C62_unique_tracking_fails' depends on axioms: [propext] 
'Verif.Serde.C62_unique_or_default_tracking' depends on axioms: [propext, Quot.sound] 
'Verif.IterSpec.C101_driver_partial' depends on axioms: [propext, Classical.choice, Quot.sound] 
'Verif.IterSpec.C101_shortest_partial' depends on axioms: [propext, Classical.choice, Quot.sound] 
'Verif.IterSpec.C101_filter_cost' depends on axioms: [propext, Quot.sound] 
'Verif.IterSpec.C101_flag_fails' depends on axioms: [propext, Quot.sound] 
'Verif.IterSpec.C101_world_hint' depends on axioms: [propext, Classical.choice, Quot.sound] 
'Verif.IterSpec.C101_nested_partial' depends on axioms: [propext, Classical.choice, Quot.sound] 
'Verif.IterSpec.C101_nested_fails' depends on axioms: [propext, Quot.sound] 
'Verif.SparseArray.C14_flat_lookup' depends on axioms: [propext, Classical.choice, Quot.sound] 
'Verif.SparseArray.C14_write_local' depends on axioms: [propext, Classical.choice, Quot.sound] 
'Verif.SparseArray.C14_allocate_total' depends on axioms: [propext, Classical.choice, Quot.sound] 
'Verif.SparseSet.C12_reads_last_write' depends on axioms: [propext, Classical.choice, Quot.sound] 
'Verif.SparseSet.C12_results' depends on axioms: [propext, Classical.choice, Quot.sound] 
'Verif.SparseSet.C12_total' depends on axioms: [propext, Classical.choice, Quot.sound] 
'Verif.SparseSet.C12_contains' depends on axioms: [propext, Classical.choice, Quot.sound] 
'Verif.SparseSet.C12_reserve' depends on axioms: [propext, Classical.choice, Quot.sound] 
'Verif.SparseSet.C12_insert_get' depends on axioms: [propext, Classical.choice, Quot.sound] 
'Verif.SparseSet.C13_stale_handle' depends on axioms: [propext, Classical.choice, Quot.sound] 
'Verif.SparseSet.C15_remove_partial' depends on axioms: [propext, Classical.choice, Quot.sound] 
'Verif.SparseSet.C15_remove_once' depends on axioms: [propext, Classical.choice, Quot.sound] 
'Verif.SparseSet.C15_older_fails' depends on axioms: [propext] 
'Verif.SparseSet.C16_removed_log' depends on axioms: [propext, Classical.choice, Quot.sound] 
'Verif.SparseSet.C16_deleted_log_partial' depends on axioms: [propext, Classical.choice, Quot.sound] 
'Verif.SparseSet.C16_one_entry' depends on axioms: [propext, Classical.choice, Quot.sound] 
'Verif.SparseSet.C16_fails' depends on axioms: [propext] 
'Verif.SparseSet.C18_sort' depends on axioms: [propext, Classical.choice, Quot.sound] 
'Verif.SparseSet.C19_retain_mut' depends on axioms: [propext, Classical.choice, Quot.sound] 
'Verif.SparseSet.C19_retain' depends on axioms: [propext, Classical.choice, Quot.sound] 
'Verif.SparseSet.C19_retain_log_partial' depends on axioms: [propext, Classical.choice, Quot.sound] 
'Verif.SparseSet.C19_fails' depends on axioms: [propext] 
'Verif.SparseSet.C20_drain_partial' depends on axioms: [propext, Classical.choice, Quot.sound] 
'Verif.SparseSet.C20_clear' depends on axioms: [propext, Classical.choice, Quot.sound] 
'Verif.SparseSet.C20_fails' depends on axioms: [propext] 
'Verif.SparseSet.C21_insertion_calls' depends on axioms: [propext, Classical.choice, Quot.sound] 
'Verif.SparseSet.C21_insert_once' depends on axioms: [propext, Classical.choice, Quot.sound] 
'Verif.SparseSet.C21_removal_once' depends on axioms: [propext, Classical.choice, Quot.sound] 
'Verif.SparseSet.C21_removal_calls_partial' depends on axioms: [propext, Classical.choice, Quot.sound] 
'Verif.SparseSet.C21_fails' depends on axioms: [propext] 
'Verif.SparseSet.C22_apply' depends on axioms: [propext, Classical.choice, Quot.sound] 
'Verif.SparseSet.C22_apply_mut' depends on axioms: [propext, Classical.choice, Quot.sound] 
'Verif.Conds.C75_storage_empty' depends on axioms: [propext, Classical.choice, Quot.sound] 
'Verif.Conds.C75_storage_empty_unwind' depends on axioms: [propext, Classical.choice, Quot.sound] 
'Verif.Conds.C75_missing_unique' depends on axioms: [propext, Classical.choice, Quot.sound] 
'Verif.Conds.C75_entities_partial' depends on axioms: [propext, Classical.choice, Quot.sound] 
'Verif.Conds.C75_system_run_if' depends on axioms: [propext, Classical.choice, Quot.sound] 
'Verif.Conds.C75_system_skip_if' depends on axioms: [propext, Classical.choice, Quot.sound] 
'Verif.Conds.C75_system_missing_unique' depends on axioms: [propext, Classical.choice, Quot.sound] 
'Verif.Conds.C75_workload_run_if' depends on axioms: [propext, Classical.choice, Quot.sound] 
'Verif.Conds.C75_workload_skip_if' depends on axioms: [propext, Classical.choice, Quot.sound] 
'Verif.Conds.C75_borrowed_fails' depends on axioms: [propext, Classical.choice, Quot.sound] 
'Verif.Conds.C75_non_send_fails' depends on axioms: [propext] 
'Verif.Conds.C75_entities_fails' depends on axioms: [propext] 
'Verif.Conds.C75_local_pool_fails' depends on axioms: [propext, Classical.choice, Quot.sound] 
'Verif.StorageMap.C74_guard' depends on axioms: [propext, Classical.choice, Quot.sound] 
'Verif.StorageMap.C74_exclusive' depends on axioms: [propext, Classical.choice, Quot.sound] 
'Verif.StorageMap.C74_not_sync' depends on axioms: [propext, Classical.choice, Quot.sound] 
'Verif.StorageMap.C74_thread' depends on axioms: [propext, Classical.choice, Quot.sound] 
'Verif.StorageMap.C74_find' depends on axioms: [propext, Classical.choice, Quot.sound] 
'Verif.StorageMap.C74_idle' depends on axioms: [propext, Classical.choice, Quot.sound] 
'Verif.StorageMap.C74_or_insert' depends on axioms: [propext, Classical.choice, Quot.sound] 
'Verif.StorageMap.C74_insert' depends on axioms: [propext, Classical.choice, Quot.sound] 
'Verif.StorageMap.C74_made' depends on axioms: [propext, Classical.choice, Quot.sound] 
'Verif.StorageMap.C74_made_once' depends on axioms: [propext, Classical.choice, Quot.sound] 
'Verif.StorageMap.C74_stays' depends on axioms: [propext, Classical.choice, Quot.sound] 
'Verif.StorageMap.C74_remove' depends on axioms: [propext, Classical.choice, Quot.sound] 
'Verif.StorageMap.C74_add' depends on axioms: [propext, Classical.choice, Quot.sound] 
'Verif.StorageMap.C74_add_local' depends on axioms: [propext] 
'Verif.StorageMap.C74_list' depends on axioms: [propext, Classical.choice, Quot.sound] 
'Verif.StorageMap.C74_list_all' depends on axioms: [propext, Classical.choice, Quot.sound] 
'Verif.StorageMap.C74_quiet_partial' depends on axioms: [propext, Classical.choice, Quot.sound] 
'Verif.StorageMap.C74_custom_lock' depends on axioms: [propext, Quot.sound] 
'Verif.StorageMap.C74_poisoned' depends on axioms: [propext, Quot.sound] 
'Verif.StorageMap.C74_initialiser_fails' depends on axioms: [propext, Quot.sound] 
'Verif.StorageMap.C74_destructor_fails' depends on axioms: [propext, Quot.sound] 
'Verif.StorageMap.C74_kind_fails' depends on axioms: [propext] 
'Verif.StorageMap.C74_off_thread_fails' depends on axioms: [propext] 
'Verif.StorageMap.C74_keeps_old_fails' depends on axioms: [propext] 
'Verif.StorageMap.C74_list_fails' depends on axioms: [propext] 
'Verif.StorageMap.C74_error_id_fails' depends on axioms: [propext] 
'Verif.TrkSpec.C24_inserted_exact' depends on axioms: [propext, Classical.choice, Quot.sound] 
'Verif.TrkSpec.C24_inserted_or_modified_partial' depends on axioms: [propext, Classical.choice, Quot.sound] 
'Verif.TrkSpec.C24_flags_exact_partial' depends on axioms: [propext, Classical.choice, Quot.sound] 
'Verif.TrkSpec.C24_unaccessed_partial' depends on axioms: [propext, Classical.choice, Quot.sound] 
'Verif.TrkSpec.C24_takeover_fails' depends on axioms: [propext] 
'Verif.TrkSpec.C24_bulk_tuple_fails' depends on axioms: [propext, Classical.choice, Quot.sound] 
'Verif.TrkSpec.C25_takeover_fails' depends on axioms: [propext, Quot.sound] 
'Verif.TrkSpec.C25_clear_inserted_partial' depends on axioms: [propext, Classical.choice, Quot.sound] 
'Verif.TrkSpec.C25_clear_modified_partial' depends on axioms: [propext, Classical.choice, Quot.sound] 
'Verif.TrkSpec.C25_both' depends on axioms: [propext] 
'Verif.TrkSpec.C64_takeover_fails' depends on axioms: [propext] 
'Verif.TrkSpec.C64_window_partial' depends on axioms: [propext, Classical.choice, Quot.sound] 
'Verif.TrkSpec.C64_override' depends on axioms: [propext] 
'Verif.TrkSpec.C64_lists_exact_partial' depends on axioms: [propext, Classical.choice, Quot.sound] 
'Verif.TrkSpec.C64_outside' depends on axioms: [propext, Classical.choice, Quot.sound] 
'Verif.Threads.C67_affinity_partial' depends on axioms: [propext, Classical.choice, Quot.sound] 
'Verif.Threads.C67_alone' depends on axioms: [propext, Classical.choice, Quot.sound] 
'Verif.Threads.C67_wrong_thread' depends on axioms: [propext] 
'Verif.Threads.C67_iter_fails' depends on axioms: [propext, Classical.choice, Quot.sound] 
'Verif.Threads.C67_custom_ids_partial' depends on axioms: [propext, Classical.choice, Quot.sound] 
'Verif.Threads.C67_custom_ids_fails' depends on axioms: [propext, Classical.choice, Quot.sound] 
'Verif.C89_since_partial' depends on axioms: [propext, Classical.choice, Quot.sound] 
'Verif.C89_stable' depends on axioms: [propext, Classical.choice, Quot.sound] 
'Verif.C89_fails' depends on axioms: [propext, Quot.sound] 
'Verif.TrkSpec.C65_offers' depends on axioms: [propext, Classical.choice, Quot.sound] 
'Verif.TrkSpec.C65_compiles' depends on axioms: [propext, Classical.choice, Quot.sound] 
'Verif.TrkSpec.C65_attributes_partial' depends on axioms: [propext, Classical.choice, Quot.sound] 
'Verif.TrkSpec.C65_second_attribute_fails' depends on axioms: [propext] 
'Verif.TrkSpec.C65_skipped_fails' depends on axioms: [propext] 
'Verif.TrkSpec.C65_tracked_partial' depends on axioms: [propext, Classical.choice, Quot.sound] 
'Verif.TrkSpec.C65_exact_partial' depends on axioms: [propext, Classical.choice, Quot.sound] 
'Verif.TrkSpec.C65_undeclared' depends on axioms: [propext, Classical.choice, Quot.sound] 
'Verif.TrkSpec.C65_fails' depends on axioms: [propext, Classical.choice, Quot.sound] 
'Verif.TrkSpec.C66_borrow' depends on axioms: [propext] 
'Verif.TrkSpec.C66_enable' depends on axioms: [propext] 
'Verif.TrkSpec.C66_track_all' depends on axioms: [propext] 
'Verif.TrkSpec.C66_inserted_since_partial' depends on axioms: [propext, Classical.choice, Quot.sound] 
'Verif.TrkSpec.C66_modified_since_partial' depends on axioms: [propext, Classical.choice, Quot.sound] 
'Verif.TrkSpec.C66_logs_since_partial' depends on axioms: [propext, Classical.choice, Quot.sound] 
'Verif.TrkSpec.C66_iter_mut_partial' depends on axioms: [propext, Classical.choice, Quot.sound] 
'Verif.TrkSpec.C66_yields' depends on axioms: [propext] 
'Verif.TrkSpec.C66_iter_mut_fails' depends on axioms: [propext] 
'Verif.TrkSpec.C66_replace_fails' depends on axioms: [propext] 
'Verif.C102_turned_on' depends on axioms: [propext, Classical.choice, Quot.sound] 
'Verif.C102_again' depends on axioms: [propext, Quot.sound] 
'Verif.C102_view' depends on axioms: [propext, Classical.choice, Quot.sound] 
'Verif.C102_then_added' depends on axioms: [propext, Classical.choice, Quot.sound] 
'Verif.C102_get' depends on axioms: [propext, Quot.sound] 
'Verif.C102_then_deleted' depends on axioms: [propext, Classical.choice, Quot.sound] 
'Verif.C102_then_removed' depends on axioms: [propext, Classical.choice, Quot.sound] 
'Verif.Sched.Told.C83_exact' depends on axioms: [propext, Classical.choice, Quot.sound] 
'Verif.Sched.Told.C83_never_missed' depends on axioms: [propext, Classical.choice, Quot.sound] 
'Verif.Sched.Told.C83_never_twice' depends on axioms: [propext, Classical.choice, Quot.sound] 
'Verif.Sched.Told.C83_twice_fails' depends on axioms: [propext, Quot.sound] 
'Verif.Sched.Told.C85_run_partial' depends on axioms: [propext, Classical.choice, Quot.sound] 
'Verif.Sched.Told.C85_history_partial' depends on axioms: [propext, Classical.choice, Quot.sound] 
'Verif.Sched.Told.C85_next_partial' depends on axioms: [propext, Classical.choice, Quot.sound] 
'Verif.Sched.Told.C85_covered' depends on axioms: [propext] 
'Verif.Sched.Told.C85_overlap_fails' depends on axioms: [propext, Quot.sound] 
'Verif.TrkSpec.C23_reported_iff_partial' depends on axioms: [propext, Classical.choice, Quot.sound] 
'Verif.TrkSpec.C23_at_most_once_partial' depends on axioms: [propext, Classical.choice, Quot.sound] 
'Verif.TrkSpec.C23_reporter_looks_after' depends on axioms: [propext, Quot.sound] 
'Verif.TrkSpec.C23_failed_run_fails' depends on axioms: [propext, Quot.sound] 
'Verif.TrkSpec.C23_race_fails' depends on axioms: [propext, Quot.sound] 
'Verif.TrkSpec.C26_world_clear_partial' depends on axioms: [propext, Classical.choice, Quot.sound] 
'Verif.TrkSpec.C26_world_clear_modified_partial' depends on axioms: [propext, Classical.choice, Quot.sound] 
'Verif.TrkSpec.C26_fails' depends on axioms: [propext, Quot.sound] 
'Verif.UTrk.C26_unique_fails' depends on axioms: [propext, Quot.sound] 
'Verif.C26_world_storages' depends on axioms: [propext, Classical.choice, Quot.sound] 
'Verif.C26_world_both' depends on axioms: [propext, Classical.choice, Quot.sound] 
'Verif.UMem.C48_uniques' depends on axioms: [propext, Classical.choice, Quot.sound] 
'Verif.UMem.C48_other_types' depends on axioms: [propext] 
'Verif.UMem.C63_views_valid_partial' depends on axioms: [propext, Classical.choice, Quot.sound] 
'Verif.UMem.C63_fails' depends on axioms: [propext] 
'Verif.UMem.C63_two_exclusive_fails' depends on axioms: [propext] 
'Verif.UTrk.C28_all_iff' depends on axioms: [propext, Classical.choice, Quot.sound] 
'Verif.UTrk.C28_reported_iff' depends on axioms: [propext, Classical.choice, Quot.sound] 
'Verif.UTrk.C28_value' depends on axioms: [propext, Quot.sound] 
'Verif.UTrk.C28_direct_iff' depends on axioms: [propext, Classical.choice, Quot.sound] 
'Verif.UTrk.C28_both_and_clone' depends on axioms: [propext, Quot.sound] 
'Verif.UTrk.C28_window' depends on axioms: [propext] 
'Verif.UMem.C71_partial' depends on axioms: [propext, Classical.choice, Quot.sound] 
'Verif.UMem.C71_open' depends on axioms: [propext, Classical.choice, Quot.sound] 
'Verif.UMem.C71_get_or_init_new' depends on axioms: [propext, Classical.choice, Quot.sound] 
'Verif.UMem.C71_get_or_init_there' depends on axioms: [propext, Classical.choice, Quot.sound] 
'Verif.UMem.C71_filled' depends on axioms: [propext, Classical.choice, Quot.sound] 
'Verif.UMem.C71_fetch' depends on axioms: [propext, Classical.choice, Quot.sound] 
'Verif.UMem.C71_set' depends on axioms: [propext, Classical.choice, Quot.sound] 
'Verif.UMem.C71_default' depends on axioms: [propext, Classical.choice, Quot.sound] 
'Verif.UMem.C71_close' depends on axioms: [propext, Classical.choice, Quot.sound] 
'Verif.UMem.C71_race_fails' depends on axioms: [propext] 
'Verif.UMem.C71_set_fails' depends on axioms: [propext] 
'Verif.UMem.C71_reentrant_fails' depends on axioms: [propext] 
'Verif.SparseSet.C72_reads_partial' depends on axioms: [propext, Classical.choice, Quot.sound] 
'Verif.SparseSet.C72_total_partial' depends on axioms: [propext, Classical.choice, Quot.sound] 
'Verif.SparseSet.C72_returned' depends on axioms: [propext, Quot.sound] 
'Verif.SparseSet.C72_returned_apply' depends on axioms: [propext, Quot.sound] 
'Verif.SparseSet.C72_insert_plain' depends on axioms: [propext, Quot.sound] 
'Verif.SparseSet.C72_insert_hook' depends on axioms: [propext, Classical.choice, Quot.sound] 
'Verif.SparseSet.C72_removal_hook' depends on axioms: [propext, Classical.choice, Quot.sound] 
'Verif.SparseSet.C72_unchanged' depends on axioms: [propext, Quot.sound] 
'Verif.SparseSet.C72_clear' depends on axioms: [propext, Classical.choice, Quot.sound] 
'Verif.SparseSet.C72_retain' depends on axioms: [propext, Classical.choice, Quot.sound] 
'Verif.SparseSet.C72_takeover_fails' depends on axioms: [propext] 
'Verif.SparseSet.C72_bulk_fails' depends on axioms: [propext] 
'Verif.SparseSet.C72_bulk_removal_fails' depends on axioms: [propext] 
'Verif.SparseSet.C72_log_fails' depends on axioms: [propext] 
'Verif.C68_add_component' depends on axioms: [propext, Classical.choice, Quot.sound] 
'Verif.C68_add_component_dead' depends on axioms: [propext] 
'Verif.C68_add_entity' depends on axioms: [propext, Classical.choice, Quot.sound] 
'Verif.C68_add_distinct_one' depends on axioms: [propext, Classical.choice, Quot.sound] 
'Verif.C68_add_distinct_partial' depends on axioms: [propext, Classical.choice, Quot.sound] 
'Verif.C68_add_distinct_fails' depends on axioms: [propext] 
'Verif.C68_contains' depends on axioms: [propext, Classical.choice, Quot.sound] 
'Verif.C68_get' depends on axioms: [propext, Classical.choice, Quot.sound] 
'Verif.C68_index' depends on axioms: [propext, Classical.choice, Quot.sound] 
'Verif.C68_get_mut' depends on axioms: [propext, Classical.choice, Quot.sound] 
'Verif.C68_index_mut' depends on axioms: [propext, Classical.choice, Quot.sound] 
'Verif.C68_remove' depends on axioms: [propext, Classical.choice, Quot.sound] 
'Verif.C68_delete' depends on axioms: [propext, Classical.choice, Quot.sound] 
'Verif.C68_get_or_insert' depends on axioms: [propext, Classical.choice, Quot.sound] 
'Verif.C68_get_or_insert_dead' depends on axioms: [propext, Classical.choice, Quot.sound] 
'Verif.Sched.C76_info' depends on axioms: [propext, Classical.choice, Quot.sound] 
'Verif.Sched.C76_every_system' depends on axioms: [propext, Classical.choice, Quot.sound] 
'Verif.Sched.C76_batches' depends on axioms: [propext, Classical.choice, Quot.sound] 
'Verif.Sched.C76_single' depends on axioms: [propext, Classical.choice, Quot.sound] 
'Verif.Sched.C76_never_notSendSync' depends on axioms: [propext, Classical.choice, Quot.sound] 
'Verif.Sched.C76_first_batch' depends on axioms: [propext, Classical.choice, Quot.sound] 
'Verif.Sched.C76_numbers_partial' depends on axioms: [propext, Classical.choice, Quot.sound] 
'Verif.Sched.C76_add' depends on axioms: [propext, Classical.choice, Quot.sound] 
'Verif.Sched.C76_history_partial' depends on axioms: [propext, Classical.choice, Quot.sound] 
'Verif.Sched.Ex.C76_witness' depends on axioms: [propext, Quot.sound] 
'Verif.Sched.Ex.C76_witness_numbers' depends on axioms: [propext] 
'Verif.Sched.C76_unique_id_fails' depends on axioms: [propext, Quot.sound] 
'Verif.Sched.C76_references_fails' depends on axioms: [propext, Quot.sound] 
'Verif.Sched.C76_previous_batch_fails' depends on axioms: [propext, Quot.sound] 
'Verif.Sched.C76_unexplained_fails' depends on axioms: [propext, Quot.sound] 
'Verif.Sched.C76_renamed_fails' depends on axioms: [propext, Quot.sound] 
'Verif.Sched.C58_valid_iff' depends on axioms: [propext, Classical.choice, Quot.sound] 
'Verif.Sched.C58_error' depends on axioms: [propext, Quot.sound] 
'Verif.Sched.C58_workload' depends on axioms: [propext, Classical.choice, Quot.sound] 
'Verif.Sched.C58_run_if_partial' depends on axioms: [propext, Quot.sound] 
'Verif.Sched.C58_run_if_fails' depends on axioms: [propext] 
'Verif.C41_components_belong_to_alive_entities_partial' depends on axioms: [propext, Classical.choice, Quot.sound] 
'Verif.C41_get_total' depends on axioms: [propext, Classical.choice, Quot.sound] 
'Verif.C41_spawn_fails' depends on axioms: [propext] 
'Verif.C41_move_refused_fails' depends on axioms: [propext] 
'Verif.C41_clone_storages_fails' depends on axioms: [propext] 
'Verif.C42_strip' depends on axioms: [propext, Classical.choice, Quot.sound] 
'Verif.C42_bulk_strip' depends on axioms: [propext, Classical.choice, Quot.sound] 
'Verif.C42_retain_storage_partial' depends on axioms: [propext, Classical.choice, Quot.sound] 
'Verif.C42_retain_nothing_fails' depends on axioms: [propext] 
'Verif.C42_foreign_id_fails' depends on axioms: [propext] 
'Verif.C42_retain' depends on axioms: [propext, Classical.choice, Quot.sound] 
'Verif.C42_retain_missing_storage_fails' depends on axioms: [propext] 
'Verif.C43_add_component_dead' depends on axioms: [propext] 
'Verif.C43_add_component' depends on axioms: [propext, Classical.choice, Quot.sound] 
'Verif.C43_listed_once' depends on axioms: [propext, Quot.sound] 
'Verif.C43_add_entity' depends on axioms: [propext, Classical.choice, Quot.sound] 
'Verif.C43_bulk_add_entity' depends on axioms: [propext, Classical.choice, Quot.sound] 
'Verif.C44_remove' depends on axioms: [propext, Classical.choice, Quot.sound] 
'Verif.C44_delete_component_partial' depends on axioms: [propext, Classical.choice, Quot.sound] 
'Verif.C44_delete_one' depends on axioms: [propext, Classical.choice, Quot.sound] 
'Verif.C44_delete_component_fails' depends on axioms: [propext] 
'Verif.Worlds.C100_apart_partial' depends on axioms: [propext, Quot.sound] 
'Verif.Worlds.C100_reported_partial' depends on axioms: [propext, Classical.choice, Quot.sound] 
'Verif.Worlds.C100_others' depends on axioms: [propext] 
'Verif.Worlds.C100_exchange' depends on axioms: [propext] 
'Verif.Worlds.C100_lost' depends on axioms: [propext, Classical.choice, Quot.sound] 
'Verif.Worlds.C100_fails' depends on axioms: [propext] 