{
 "claims": [
  {
   "property": "C01",
   "status": "proved",
   "theorems": [
    "Statig.C01_dispatch_climbs"
   ],
   "note": "both modes, every schedule, also for interrupted calls"
  },
  {
   "property": "C02",
   "status": "proved",
   "theorems": [
    "Statig.C02_all_super_changes_nothing"
   ],
   "note": ""
  },
  {
   "property": "C03",
   "status": "proved",
   "theorems": [
    "Statig.C03_handled_no_transition"
   ],
   "note": ""
  },
  {
   "property": "C04",
   "status": "proved",
   "theorems": [
    "Statig.C04_single_transition"
   ],
   "note": ""
  },
  {
   "property": "C05",
   "status": "proved",
   "theorems": [
    "Statig.C05_blocking_dispatch_hooks"
   ],
   "note": ""
  },
  {
   "property": "C06",
   "status": "proved",
   "theorems": [
    "Statig.C06_awaitable_dispatch_hooks"
   ],
   "note": ""
  },
  {
   "property": "C07",
   "status": "proved",
   "theorems": [
    "Statig.C07_exits_and_entries"
   ],
   "note": ""
  },
  {
   "property": "C08",
   "status": "proved",
   "theorems": [
    "Statig.C08_shortest_path"
   ],
   "note": ""
  },
  {
   "property": "C09",
   "status": "proved",
   "theorems": [
    "Statig.C09_self_transition"
   ],
   "note": ""
  },
  {
   "property": "C10",
   "status": "proved",
   "theorems": [
    "Statig.C10_target_unaffected_by_exit"
   ],
   "note": ""
  },
  {
   "property": "C11",
   "status": "proved",
   "theorems": [
    "Statig.C11_transition_hooks"
   ],
   "note": ""
  },
  {
   "property": "C12",
   "status": "proved",
   "theorems": [
    "Statig.C12_after_transition_arguments"
   ],
   "note": ""
  },
  {
   "property": "C13",
   "status": "partial",
   "theorems": [
    "Statig.C13_before_transition_arguments_partial",
    "Statig.C13_blocking_is_swapped"
   ],
   "note": "proved for awaitable mode; the blocking code swaps the arguments, which C13_blocking_is_swapped proves"
  },
  {
   "property": "C14",
   "status": "proved",
   "theorems": [
    "Statig.C14_stack_mirrors_state",
    "Statig.C14_interrupted"
   ],
   "note": ""
  },
  {
   "property": "C15",
   "status": "proved",
   "theorems": [
    "Statig.C15_no_own_panic"
   ],
   "note": ""
  },
  {
   "property": "C16",
   "status": "proved",
   "theorems": [
    "Statig.C16_uninitialized_init",
    "Statig.C16_init",
    "Statig.C16_handle"
   ],
   "note": ""
  },
  {
   "property": "C17",
   "status": "proved",
   "theorems": [
    "Statig.C17_initialized_once",
    "Statig.C17_never_again",
    "Statig.C17_exactly_once"
   ],
   "note": ""
  },
  {
   "property": "C18",
   "status": "proved",
   "theorems": [
    "Statig.C18_lazy_is_explicit",
    "Statig.C18_from_construction",
    "Statig.C18_identical_afterwards"
   ],
   "note": ""
  },
  {
   "property": "C19",
   "status": "proved",
   "theorems": [
    "Statig.C19_construction"
   ],
   "note": ""
  },
  {
   "property": "C20",
   "status": "proved",
   "theorems": [
    "Statig.C20_entry_points_agree"
   ],
   "note": ""
  },
  {
   "property": "C21",
   "status": "proved",
   "theorems": [
    "Statig.C21_calls_return"
   ],
   "note": ""
  },
  {
   "property": "C22",
   "status": "proved",
   "theorems": [
    "Statig.C22_deferred_forever",
    "Statig.C22_transition_forever",
    "Statig.C22_endless_chain_never_returns"
   ],
   "note": ""
  },
  {
   "property": "C23",
   "status": "proved",
   "theorems": [
    "Statig.C23_depth"
   ],
   "note": ""
  },
  {
   "property": "C24",
   "status": "proved",
   "theorems": [
    "Statig.C24_common_ancestor_depth",
    "Statig.C24_superstate_common_ancestor_depth"
   ],
   "note": ""
  },
  {
   "property": "C25",
   "status": "proved",
   "theorems": [
    "Statig.C25_transition_path"
   ],
   "note": ""
  },
  {
   "property": "C26",
   "status": "proved",
   "theorems": [
    "Statig.C26_same_state_equivalence",
    "Statig.C26_only_the_variant_matters"
   ],
   "note": ""
  },
  {
   "property": "C27",
   "status": "proved",
   "theorems": [
    "Statig.C27_exit",
    "Statig.C27_blocking_enter",
    "Statig.C27_awaitable_enter"
   ],
   "note": ""
  },
  {
   "property": "C28",
   "status": "proved",
   "theorems": [
    "Statig.C28_blocking_handle_result",
    "Statig.C28_awaitable_handle_result"
   ],
   "note": ""
  },
  {
   "property": "C29",
   "status": "proved",
   "theorems": [
    "Statig.C29_modes_alike",
    "Statig.C29_init_alike"
   ],
   "note": ""
  },
  {
   "property": "C30",
   "status": "proved",
   "theorems": [
    "Statig.C30_schedules_cannot_reorder"
   ],
   "note": ""
  },
  {
   "property": "C31",
   "status": "proved",
   "theorems": [
    "Statig.C31_interrupted_transition"
   ],
   "note": ""
  },
  {
   "property": "C32",
   "status": "proved",
   "theorems": [
    "Statig.C32_interrupted_init_starts_over",
    "Statig.C32_initialized_before_dispatch"
   ],
   "note": ""
  },
  {
   "property": "C33",
   "status": "proved",
   "theorems": [
    "Statig.C33_interrupted_dispatch"
   ],
   "note": ""
  },
  {
   "property": "C34",
   "status": "proved",
   "theorems": [
    "Statig.C34_handle",
    "Statig.C34_init",
    "Statig.C34_lazy_handle"
   ],
   "note": ""
  },
  {
   "property": "C35",
   "status": "proved",
   "theorems": [
    "Statig.C35_views",
    "Statig.C35_handler_writes_reach_state"
   ],
   "note": ""
  },
  {
   "property": "C36",
   "status": "proved",
   "theorems": [
    "Statig.C36_untouched_state",
    "Statig.C36_untouched_by_called"
   ],
   "note": ""
  },
  {
   "property": "C37",
   "status": "proved",
   "theorems": [
    "Statig.C37_equality",
    "Statig.C37_equal_machines_behave_identically",
    "Statig.C37_deterministic",
    "Statig.C37_clone"
   ],
   "note": ""
  },
  {
   "property": "C38",
   "status": "proved",
   "theorems": [
    "Statig.C38_round_trip",
    "Statig.C38_across_types"
   ],
   "note": ""
  },
  {
   "property": "C39",
   "status": "proved",
   "theorems": [
    "Statig.C39_reenters",
    "Statig.C39_uninitialized"
   ],
   "note": ""
  },
  {
   "property": "C40",
   "status": "proved",
   "theorems": [
    "Statig.C40_accepts_exactly",
    "Statig.C40_rejections"
   ],
   "note": ""
  },
  {
   "property": "C41",
   "status": "proved",
   "theorems": [
    "Statig.C41_response",
    "Statig.C41_state_or_superstate",
    "Statig.C41_equivalences"
   ],
   "note": ""
  },
  {
   "property": "C42",
   "status": "proved",
   "theorems": [
    "Statig.C42_mode",
    "Statig.C42_hooks"
   ],
   "note": ""
  },
  {
   "property": "C43",
   "status": "proved",
   "theorems": [
    "Statig.C43_variants",
    "Statig.C43_initial",
    "Statig.C43_actions",
    "Statig.C43_sup_actions",
    "Statig.C43_superstate",
    "Statig.C43_sup_superstate",
    "Statig.C43_dangling"
   ],
   "note": ""
  },
  {
   "property": "C44",
   "status": "proved",
   "theorems": [
    "Statig.C44_follows",
    "Statig.C44_above",
    "Statig.C44_transition"
   ],
   "note": ""
  },
  {
   "property": "C45",
   "status": "proved",
   "theorems": [
    "Statig.C45_constructor",
    "Statig.C45_only",
    "Statig.C45_second_attribute"
   ],
   "note": ""
  },
  {
   "property": "C46",
   "status": "proved",
   "theorems": [
    "Statig.C46_items",
    "Statig.C46_behaviour",
    "Statig.C46_types_declared",
    "Statig.C46_types",
    "Statig.C46_types_differ",
    "Statig.C46_variant_order"
   ],
   "note": ""
  },
  {
   "property": "C47",
   "status": "proved",
   "theorems": [
    "Statig.C47_handler",
    "Statig.C47_sup_handler",
    "Statig.C47_shadowed"
   ],
   "note": ""
  },
  {
   "property": "C48",
   "status": "proved",
   "theorems": [
    "Statig.C48_pascal",
    "Statig.C48_no_underscore",
    "Statig.C48_injective",
    "Statig.C48_distinct",
    "Statig.C48_collision"
   ],
   "note": "C48_collision shows that the restriction to snake_case is needed"
  },
  {
   "property": "C49",
   "status": "proved",
   "theorems": [
    "Statig.C49_types",
    "Statig.C49_named_replaced",
    "Statig.C49_underscore_kept",
    "Statig.C49_reference_kept",
    "Statig.C49_named_replaced_in_code"
   ],
   "note": "C49 is stated as the exact condition under which only anonymous lifetimes are renamed; the unrestricted claim is false of the code"
  },
  {
   "property": "C50",
   "status": "proved",
   "theorems": [
    "Statig.C50_representation_independence"
   ],
   "note": ""
  },
  {
   "property": "C51",
   "status": "proved",
   "theorems": [
    "Statig.C51_state_fields",
    "Statig.C51_superstate_fields",
    "Statig.C51_constructor_args",
    "Statig.C51_lifetime"
   ],
   "note": ""
  },
  {
   "property": "C52",
   "status": "proved",
   "theorems": [
    "Statig.C52_methods_kept",
    "Statig.C52_others_unchanged",
    "Statig.C52_defaults_removed"
   ],
   "note": ""
  },
  {
   "property": "C53",
   "status": "proved",
   "theorems": [
    "Statig.C53_settings"
   ],
   "note": ""
  },
  {
   "property": "C54",
   "status": "proved",
   "theorems": [
    "Statig.C54_state_generics",
    "Statig.C54_superstate_generics",
    "Statig.C54_needed",
    "Statig.C54_superstate_needed",
    "Statig.C54_bounded_lifetime"
   ],
   "note": "C54_state_generics and C54_superstate_generics are unconditional; C54_needed (state enum) relates them to the fields"
  },
  {
   "property": "C55",
   "status": "proved",
   "theorems": [
    "Statig.C55_accepts",
    "Statig.C55_rejects",
    "Statig.C55_settings"
   ],
   "note": "parsing by syn (identifiers, expressions, paths) is a parameter"
  },
  {
   "property": "C56",
   "status": "proved",
   "theorems": [
    "Statig.C56_compiles",
    "Statig.C56_accepts",
    "Statig.C56_event_in_action"
   ],
   "note": "name and scope checks only; type and borrow checking of the generated code is not modelled"
  },
  {
   "property": "C57",
   "status": "proved",
   "theorems": [
    "Statig.C57_cyclic_never_returns",
    "Statig.C57_cyclic_transition"
   ],
   "note": ""
  },
  {
   "property": "C58",
   "status": "proved",
   "theorems": [
    "Statig.C58_headers",
    "Statig.C58_callee",
    "Statig.C58_callee_is_self",
    "Statig.C58_callee_differs"
   ],
   "note": ""
  },
  {
   "property": "C59",
   "status": "proved",
   "theorems": [
    "Statig.C59_incremental"
   ],
   "note": ""
  },
  {
   "property": "C60",
   "status": "proved",
   "theorems": [
    "Statig.C60_ends_when_polled",
    "Statig.C60_returns_when_polled"
   ],
   "note": ""
  },
  {
   "property": "C61",
   "status": "proved",
   "theorems": [
    "Statig.C61_storage_invariant",
    "Statig.C61_storage_predicate"
   ],
   "note": ""
  },
  {
   "property": "C62",
   "status": "proved",
   "theorems": [
    "Statig.C62_history_pattern",
    "Statig.C62_resume"
   ],
   "note": ""
  },
  {
   "property": "C63",
   "status": "proved",
   "theorems": [
    "Statig.C63_basic",
    "Statig.C63_blinky",
    "Statig.C63_calculator",
    "Statig.C63_cd_player",
    "Statig.C63_dishwasher"
   ],
   "note": ""
  },
  {
   "property": "C64",
   "status": "proved",
   "theorems": [
    "Statig.C64_dishwasher",
    "Statig.C64_dishwasher_macro"
   ],
   "note": ""
  },
  {
   "property": "C65",
   "status": "proved",
   "theorems": [
    "Statig.C65_barrier_accepted",
    "Statig.C65_barrier"
   ],
   "note": ""
  },
  {
   "property": "C66",
   "status": "proved",
   "theorems": [
    "Statig.C66_calculator_computes",
    "Statig.C66_calculator_continues",
    "Statig.C66_calculator_reset"
   ],
   "note": ""
  },
  {
   "property": "C67",
   "status": "proved",
   "theorems": [
    "Statig.C67_calculator_crashes",
    "Statig.C67_calculator_zero_crashes",
    "Statig.C67_calculator_versions_differ",
    "Statig.C67_calculator_loses_minus"
   ],
   "note": ""
  },
  {
   "property": "C68",
   "status": "proved",
   "theorems": [
    "Statig.C68_init",
    "Statig.C68_handle",
    "Statig.C68_storage_accounts_for_active_nodes"
   ],
   "note": ""
  },
  {
   "property": "C69",
   "status": "proved",
   "theorems": [
    "Statig.C69_handle",
    "Statig.C69_state_and_storage_linked"
   ],
   "note": ""
  },
  {
   "property": "C70",
   "status": "proved",
   "theorems": [
    "Statig.C70_handle_bounded",
    "Statig.C70_calls_bounded"
   ],
   "note": ""
  },
  {
   "property": "C71",
   "status": "proved",
   "theorems": [
    "Statig.C71_stack_mirrors_state",
    "Statig.C71_interrupted",
    "Statig.C71_other_variant"
   ],
   "note": ""
  },
  {
   "property": "C72",
   "status": "proved",
   "theorems": [
    "Statig.C72_removed",
    "Statig.C72_exists"
   ],
   "note": ""
  },
  {
   "property": "C73",
   "status": "proved",
   "theorems": [
    "Statig.C73_adding_states",
    "Statig.C73_stays"
   ],
   "note": ""
  },
  {
   "property": "C74",
   "status": "proved",
   "theorems": [
    "Statig.C74_variants",
    "Statig.C74_extends",
    "Statig.C74_adding_methods"
   ],
   "note": ""
  },
  {
   "property": "C75",
   "status": "proved",
   "theorems": [
    "Statig.C75_type_checks",
    "Statig.C75_agreeing",
    "Statig.C75_exact",
    "Statig.C75_event",
    "Statig.C75_order",
    "Statig.C75_access"
   ],
   "note": "Types of arguments of generated calls and of fields of superstate expressions; lifetimes, borrows, trait bounds and return types are not modelled."
  },
  {
   "property": "C76",
   "status": "proved",
   "theorems": [
    "Statig.C76_divided",
    "Statig.C76_exists",
    "Statig.C76_inlined",
    "Statig.C76_flat"
   ],
   "note": ""
  },
  {
   "property": "C77",
   "status": "proved",
   "theorems": [
    "Statig.C77_accepted",
    "Statig.C77_rejected",
    "Statig.C77_behaviour",
    "Statig.C77_types"
   ],
   "note": ""
  },
  {
   "property": "C78",
   "status": "proved",
   "theorems": [
    "Statig.C78_observing_hooks",
    "Statig.C78_state"
   ],
   "note": ""
  },
  {
   "property": "C79",
   "status": "proved",
   "theorems": [
    "Statig.C79_borrow_checks",
    "Statig.C79_no_conflict",
    "Statig.C79_conflict"
   ],
   "note": ""
  },
  {
   "property": "C80",
   "status": "proved",
   "theorems": [
    "Statig.C80_plain",
    "Statig.C80_no_superstates",
    "Statig.C80_unit_superstate",
    "Statig.C80_ends"
   ],
   "note": ""
  },
  {
   "property": "C81",
   "status": "proved",
   "theorems": [
    "Statig.C81_items",
    "Statig.C81_rejected",
    "Statig.C81_compiles",
    "Statig.C81_variants",
    "Statig.C81_types",
    "Statig.C81_behaviour"
   ],
   "note": ""
  },
  {
   "property": "C82",
   "status": "proved",
   "theorems": [
    "Statig.C82_path",
    "Statig.C82_initialized",
    "Statig.C82_test",
    "Statig.C82_macro"
   ],
   "note": ""
  },
  {
   "property": "C83",
   "status": "proved",
   "theorems": [
    "Statig.C83_message",
    "Statig.C83_faults",
    "Statig.C83_only",
    "Statig.C83_rejects",
    "Statig.C83_occur",
    "Statig.C83_order"
   ],
   "note": ""
  },
  {
   "property": "C84",
   "status": "proved",
   "theorems": [
    "Statig.C84_generics",
    "Statig.C84_config",
    "Statig.C84_external_context",
    "Statig.C84_external_context_shared",
    "Statig.C84_external_context_test",
    "Statig.C84_hooks",
    "Statig.C84_local_storage",
    "Statig.C84_default"
   ],
   "note": ""
  },
  {
   "property": "C85",
   "status": "proved",
   "theorems": [
    "Statig.C85_response_text",
    "Statig.C85_response_pretty",
    "Statig.C85_response_distinct",
    "Statig.C85_state_or_superstate",
    "Statig.C85_machine_text",
    "Statig.C85_machine_distinct"
   ],
   "note": ""
  },
  {
   "property": "C86",
   "status": "proved",
   "theorems": [
    "Statig.C86_accepts",
    "Statig.C86_errors",
    "Statig.C86_methods"
   ],
   "note": ""
  },
  {
   "property": "C87",
   "status": "proved",
   "theorems": [
    "Statig.C87_resumes",
    "Statig.C87_uninitialized",
    "Statig.C87_initialized",
    "Statig.C87_test",
    "Statig.C87_test_button"
   ],
   "note": ""
  },
  {
   "property": "C88",
   "status": "proved",
   "theorems": [
    "Statig.C88_same_calls",
    "Statig.C88_call",
    "Statig.C88_initialized_call",
    "Statig.C88_any_call",
    "Statig.C88_balance",
    "Statig.C88_init"
   ],
   "note": "The statement about tags is for any function of states that callbacks preserve (KeepsTag); C88_any_call needs no such function. What user code owns and drops itself is not modelled."
  },
  {
   "property": "C89",
   "status": "proved",
   "theorems": [
    "Statig.C89_peer",
    "Statig.C89_uninterrupted",
    "Statig.C89_delivers",
    "Statig.C89_off"
   ],
   "note": "Model of tokio's write_all: the rest is offered until all is taken; taking nothing is an error. The text is ASCII, bytes are modelled as characters. The TCP connection, the listener task and the executor are not modelled."
  },
  {
   "property": "C90",
   "status": "proved",
   "theorems": [
    "Statig.C90_pure",
    "Statig.C90_conduct",
    "Statig.C90_init",
    "Statig.C90_first",
    "Statig.C90_variant",
    "Statig.C90_invariant",
    "Statig.C90_effects_matter"
   ],
   "note": ""
  },
  {
   "property": "C91",
   "status": "proved",
   "theorems": [
    "Statig.C91_handle",
    "Statig.C91_init",
    "Statig.C91_history"
   ],
   "note": "For any superstate() that keeps variants and follows a forest. C90 has what remains without this hypothesis."
  },
  {
   "property": "C92",
   "status": "proved",
   "theorems": [
    "Statig.C92_accepted",
    "Statig.C92_ring",
    "Statig.C92_ring_never_again",
    "Statig.C92_ring_rounds",
    "Statig.C92_ring_at_most",
    "Statig.C92_cd",
    "Statig.C92_cd_loop"
   ],
   "note": ""
  },
  {
   "property": "C93",
   "status": "proved",
   "theorems": [
    "Statig.C93_blinky",
    "Statig.C93_async_accepted",
    "Statig.C93_async_blinky"
   ],
   "note": ""
  },
  {
   "property": "C94",
   "status": "proved",
   "theorems": [
    "Statig.C94_accepted",
    "Statig.C94_generics"
   ],
   "note": ""
  },
  {
   "property": "C95",
   "status": "proved",
   "theorems": [
    "Statig.C95_buttons",
    "Statig.C95_typed",
    "Statig.C95_app",
    "Statig.C95_computes",
    "Statig.C95_versions_differ"
   ],
   "note": ""
  }
 ]
}