# Axioms per theorem

Output of Lean's `collectAxioms` (the same as `#print axioms`) for every theorem in `MANIFEST.json`.

## `propext`

* `Halo.C09_counterexample`
* `Halo.C34_assets`
* `Halo.C101_asset_read_back`
* `Halo.C101_asset_unchanged`
* `Halo.C116_deposit_price`
* `Halo.C116_send_price`

## `Quot.sound`, `propext`

* `Halo.C03_swap_pays_return`
* `Halo.C12_counterexample`
* `Halo.C19_mints_shares`
* `Halo.C20_counterexample`
* `Halo.C22_counterexample`
* `Halo.C23_withdraw_only_lp`
* `Halo.C23_others_rejected`
* `Halo.C24_swap_only_assets`
* `Halo.C25_native_swap_refused`
* `Halo.C25_only_tokens_offered`
* `Halo.C25_router_native_hop`
* `Halo.C25_delivery_fails`
* `Halo.C26_deposit_exact`
* `Halo.C27_pair_immutable`
* `Halo.C29_pair_is_minter`
* `Halo.C31_no_minter_no_growth`
* `Halo.C31_meta_immutable`
* `Halo.C32_minimum_receive`
* `Halo.C32_minimum_receive_tx`
* `Halo.C33_hop_only_router`
* `Halo.C34_check_iff`
* `Halo.C34_accepted_iff`
* `Halo.C34_hook_accepted_iff`
* `Halo.C35_hop_offers_all`
* `Halo.C37_owner_only`
* `Halo.C37_not_without_owner`
* `Halo.C38_one_entry_per_key`
* `Halo.C38_entries_stay`
* `Halo.C38_query_stays`
* `Halo.C38_never_shrinks`
* `Halo.C39_query_symmetric`
* `Halo.C39_create_symmetric`
* `Halo.C39_duplicate_symmetric`
* `Halo.C40_key_partial`
* `Halo.C40_lookup_partial`
* `Halo.C40_counterexample`
* `Halo.C40_exact_partial`
* `Halo.C40_lookup_exact_partial`
* `Halo.C41_counterexample`
* `Halo.C43_page_size`
* `Halo.C43_first_page`
* `Halo.C43_later_page`
* `Halo.C44_exact_partial`
* `Halo.C44_normal_form_partial`
* `Halo.C44_registry_partial`
* `Halo.C44_counterexample`
* `Halo.C45_created_with_registered`
* `Halo.C45_registered_by_owner`
* `Halo.C45_initially_none`
* `Halo.C61_stray_money_is_locked`
* `Halo.C61_factory_coins`
* `Halo.C61_stray_money_in_pair`
* `Halo.C64_has_owner`
* `Halo.C64_call_iff`
* `Halo.C64_call_effect`
* `Halo.C64_settings_iff`
* `Halo.C64_settings_effect`
* `Halo.C64_migrate_iff`
* `Halo.C64_queries`
* `Halo.C69_counterexample`
* `Halo.C71_counterexample`
* `Halo.C72_stays`
* `Halo.C72_frozen`
* `Halo.C73_factory_announced`
* `Halo.C73_created`
* `Halo.C78_factory_iff`
* `Halo.C78_factory_effect`
* `Halo.C78_router_iff`
* `Halo.C78_router_effect`
* `Halo.C78_own_message`
* `Halo.C81_malformed`
* `Halo.C87_factory_administers`
* `Halo.C87_distinct`
* `Halo.C87_one_factory`
* `Halo.C87_answers`
* `Halo.C96_taken`
* `Halo.C99_caught`
* `Halo.C99_bundle`
* `Halo.C99_later`
* `Halo.C99_reachable`
* `Halo.C99_machine`
* `Halo.C99_recorded`
* `Halo.C99_logged`
* `Halo.C100_books`
* `Halo.C100_origin`
* `Halo.C100_owner`
* `Halo.C101_asset_stored`
* `Halo.C105_unlisted`
* `Halo.C107_clock`
* `Halo.C107_trade`
* `Halo.C112_settled`
* `Halo.C112_one_outcome`
* `Halo.C112_no_foreign`
* `Halo.C116_coins`
* `Halo.C123_quote_too_high`
* `Halo.C123_quote_too_low`
* `Halo.C124_left_behind`

## `Classical.choice`, `Quot.sound`, `propext`

* `Halo.C01_exact_partial`
* `Halo.C01_swap_tx_exact_partial`
* `Halo.C01_no_leak_partial`
* `Halo.C01_swaps_keep_product_partial`
* `Halo.C01_counterexample`
* `Halo.C01_partial`
* `Halo.C01_commission_partial`
* `Halo.C01_bound_partial`
* `Halo.C01_swap_tx_partial`
* `Halo.C01_swap_tx_bound_partial`
* `Halo.C02_payable`
* `Halo.C02_never_drained`
* `Halo.C02_dust_drained`
* `Halo.C02_swap_tx`
* `Halo.C03_commission_rate`
* `Halo.C04_constant_product`
* `Halo.C04_exact`
* `Halo.C04_swap_tx`
* `Halo.C05_monotone`
* `Halo.C05_antitone_offer_reserve`
* `Halo.C05_swap_tx`
* `Halo.C06_round_trip`
* `Halo.C06_swap_tx`
* `Halo.C07_quote_is_paid`
* `Halo.C07_quote_is_reported`
* `Halo.C08_quote_returns_at_most`
* `Halo.C08_quote_plus_one_suffices`
* `Halo.C08_quote_plus_one_shortfall`
* `Halo.C08_quote_may_fall_short`
* `Halo.C08_reverse_query`
* `Halo.C09_domain`
* `Halo.C09_partial`
* `Halo.C10_max_spread`
* `Halo.C10_swap_tx`
* `Halo.C11_belief_price`
* `Halo.C11_zero_spread`
* `Halo.C11_swap_tx`
* `Halo.C12_partial`
* `Halo.C12_equal_decimals_partial`
* `Halo.C13_slippage`
* `Halo.C13_deposit_tx`
* `Halo.C14_counterexample`
* `Halo.C14_partial`
* `Halo.C15_no_dilution`
* `Halo.C15_share_maximal`
* `Halo.C15_deposit_tx`
* `Halo.C16_withdraw_fair`
* `Halo.C16_withdraw_tx`
* `Halo.C16_withdraw_tx_backing`
* `Halo.C17_no_gain`
* `Halo.C17_first_takes_all`
* `Halo.C17_gain_iff`
* `Halo.C17_message`
* `Halo.C17_counterexample`
* `Halo.C17_tx`
* `Halo.C18_first_deposit`
* `Halo.C18_deposit_tx`
* `Halo.C19_deposit_tx`
* `Halo.C20_no_leak_partial`
* `Halo.C20_backed_partial`
* `Halo.C21_constant_product`
* `Halo.C22_request_exact_partial`
* `Halo.C22_no_leak_partial`
* `Halo.C22_share_value_partial`
* `Halo.C23_withdraw_tx`
* `Halo.C26_deposit_tx`
* `Halo.C28_balances_sum_to_supply`
* `Halo.C28_balance_le_supply`
* `Halo.C29_supply_grows_only_by_deposit`
* `Halo.C30_only_own_money`
* `Halo.C30_no_allowance`
* `Halo.C31_tokens_valid`
* `Halo.C31_cap_forever`
* `Halo.C35_messages`
* `Halo.C35_hop_spends_all`
* `Halo.C36_route_pays_quote`
* `Halo.C37_settings_change_only_by_owner`
* `Halo.C41_entry_describes_pair_partial`
* `Halo.C41_answers_agree_partial`
* `Halo.C41_new_entry_partial`
* `Halo.C42_sublist_partial`
* `Halo.C42_exact_partial`
* `Halo.C42_every_limit_partial`
* `Halo.C42_paging_partial`
* `Halo.C42_counterexample`
* `Halo.C45_history`
* `Halo.C46_print_parse`
* `Halo.C46_printed_text`
* `Halo.C46_uint_print_parse`
* `Halo.C46_print_injective`
* `Halo.C47_widen`
* `Halo.C47_narrow`
* `Halo.C47_roundtrip`
* `Halo.C47_std_parse`
* `Halo.C47_std_plus`
* `Halo.C48_widen`
* `Halo.C48_narrow`
* `Halo.C48_roundtrip`
* `Halo.C49_uint_add`
* `Halo.C49_uint_sub`
* `Halo.C49_uint_mul`
* `Halo.C49_uint_multiply_ratio`
* `Halo.C49_uint_mul_dec`
* `Halo.C49_uint_div_dec`
* `Halo.C49_dec_add`
* `Halo.C49_dec_sub`
* `Halo.C49_dec_mul`
* `Halo.C49_dec_div`
* `Halo.C49_dec_from_ratio`
* `Halo.C49_dec_from_uint`
* `Halo.C49_dec_percent`
* `Halo.C49_dec_permille`
* `Halo.C50_parse_exact`
* `Halo.C50_panic_only_overflow`
* `Halo.C50_refuses_other_bytes`
* `Halo.C50_empty_parts_accepted`
* `Halo.C51_native_supply_conserved`
* `Halo.C52_only_dust_lowers_value`
* `Halo.C52_only_dust_unbacks`
* `Halo.C52_dust_is_small`
* `Halo.C53_creates_what_was_asked`
* `Halo.C53_query_answers`
* `Halo.C54_swaps_extract_nothing`
* `Halo.C55_withdraw_iff`
* `Halo.C55_withdraw_live`
* `Halo.C55_withdraw_all`
* `Halo.C56_swap_iff`
* `Halo.C56_swap_live`
* `Halo.C57_first_deposit_exact_partial`
* `Halo.C57_deposit_live`
* `Halo.C57_first_deposit_live_partial`
* `Halo.C57_first_deposit_overflow`
* `Halo.C58_reserves`
* `Halo.C58_quotes`
* `Halo.C58_after_swap`
* `Halo.C58_front_run`
* `Halo.C59_reverse_route`
* `Halo.C59_reverse_quote_falls_short`
* `Halo.C60_route_iff`
* `Halo.C60_route_live`
* `Halo.C60_route_leaves_nothing`
* `Halo.C61_router_coins`
* `Halo.C62_sweep_iff`
* `Halo.C62_sweep_pays`
* `Halo.C63_call_iff`
* `Halo.C63_call_effect`
* `Halo.C63_tx_iff`
* `Halo.C63_tx_effect`
* `Halo.C63_queries`
* `Halo.C65_create_iff`
* `Halo.C65_anyone_can_create`
* `Halo.C66_pair_info`
* `Halo.C66_pool_iff`
* `Halo.C66_simulation_iff`
* `Halo.C66_reverse_iff`
* `Halo.C66_unknown_asset`
* `Halo.C67_deposit_exact`
* `Halo.C67_deposit_iff`
* `Halo.C67_order`
* `Halo.C67_tolerance_monotone`
* `Halo.C68_undo_loss`
* `Halo.C69_partial`
* `Halo.C69_fraction_partial`
* `Halo.C70_fees_accrue`
* `Halo.C70_fee_tx`
* `Halo.C71_split_history_partial`
* `Halo.C71_split_partial`
* `Halo.C71_split_total_partial`
* `Halo.C71_split_gain_partial`
* `Halo.C72_only_by_admin`
* `Halo.C72_role_is_never_given_away`
* `Halo.C73_announced`
* `Halo.C73_bookkeeping`
* `Halo.C73_paid`
* `Halo.C73_log_paid`
* `Halo.C74_indexer`
* `Halo.C74_action`
* `Halo.C74_text_determines`
* `Halo.C74_pair_history`
* `Halo.C74_digits_needed`
* `Halo.C74_dash_needed`
* `Halo.C74_kind_not_written`
* `Halo.C75_split_deposit`
* `Halo.C75_split_withdrawal`
* `Halo.C76_route_below_spot`
* `Halo.C76_no_free_cycle`
* `Halo.C76_market`
* `Halo.C77_more_in_more_out`
* `Halo.C77_there_and_back`
* `Halo.C77_same_as_by_hand`
* `Halo.C77_router_iff_by_hand`
* `Halo.C78_token_iff`
* `Halo.C78_token_effect`
* `Halo.C78_pair_iff`
* `Halo.C78_pair_effect`
* `Halo.C79_frozen_no_swap`
* `Halo.C79_frozen_until_withdrawal`
* `Halo.C79_small_never_frozen`
* `Halo.C79_sellable_iff`
* `Halo.C79_one_direction`
* `Halo.C79_worthless`
* `Halo.C79_can_trade`
* `Halo.C79_frozen_refuses`
* `Halo.C80_bounded`
* `Halo.C80_gas`
* `Halo.C80_closed`
* `Halo.C81_holders`
* `Halo.C81_granted`
* `Halo.C81_received`
* `Halo.C81_page_size`
* `Halo.C82_stored`
* `Halo.C82_received`
* `Halo.C82_sent`
* `Halo.C83_delivered`
* `Halo.C83_roundtrip`
* `Halo.C83_image`
* `Halo.C83_text`
* `Halo.C83_inst_delivered`
* `Halo.C83_inst_image`
* `Halo.C83_sent`
* `Halo.C83_shared`
* `Halo.C83_direct`
* `Halo.C84_requests`
* `Halo.C84_token`
* `Halo.C84_pair`
* `Halo.C84_factory`
* `Halo.C84_router`
* `Halo.C84_querier`
* `Halo.C84_tx`
* `Halo.C84_tx_typed`
* `Halo.C84_reachable`
* `Halo.C85_average_price`
* `Halo.C85_sandwich`
* `Halo.C85_limit_protects`
* `Halo.C86_withdraw_later`
* `Halo.C86_worth_at_entry_prices`
* `Halo.C88_bisimulation`
* `Halo.C88_reachable`
* `Halo.C88_complete`
* `Halo.C88_mirror`
* `Halo.C89_json`
* `Halo.C89_exec`
* `Halo.C89_inst`
* `Halo.C89_query`
* `Halo.C89_hook`
* `Halo.C89_answer`
* `Halo.C89_refused`
* `Halo.C90_reverse`
* `Halo.C90_commission`
* `Halo.C90_average`
* `Halo.C90_reverse_query`
* `Halo.C90_route`
* `Halo.C90_reverse_route`
* `Halo.C91_swap`
* `Halo.C91_swap_payout`
* `Halo.C91_withdraw`
* `Halo.C91_withdraw_payout`
* `Halo.C91_deposit`
* `Halo.C91_deposit_credit`
* `Halo.C92_exact`
* `Halo.C92_host`
* `Halo.C92_unambiguous`
* `Halo.C92_pair_reply`
* `Halo.C92_refused`
* `Halo.C93_check`
* `Halo.C93_strings`
* `Halo.C93_checked`
* `Halo.C93_same`
* `Halo.C93_written`
* `Halo.C94_small`
* `Halo.C94_share_value`
* `Halo.C94_backed`
* `Halo.C94_product`
* `Halo.C94_stay0`
* `Halo.C94_stay1`
* `Halo.C95_replay`
* `Halo.C95_accounts`
* `Halo.C95_allowances`
* `Halo.C96_gate`
* `Halo.C96_nobody`
* `Halo.C97_lower_price0`
* `Halo.C97_lower_price1`
* `Halo.C97_lower_price0_share`
* `Halo.C97_lower_price1_share`
* `Halo.C97_provider`
* `Halo.C98_history`
* `Halo.C98_supply`
* `Halo.C98_pair`
* `Halo.C98_registry`
* `Halo.C100_registered`
* `Halo.C101_decimal_read_back`
* `Halo.C101_uint_read_back`
* `Halo.C101_decimal_texts`
* `Halo.C101_uint_texts`
* `Halo.C101_panics`
* `Halo.C102_reserve`
* `Halo.C102_supply`
* `Halo.C102_coins`
* `Halo.C102_tally`
* `Halo.C103_swap`
* `Halo.C103_withdraw`
* `Halo.C103_deposit`
* `Halo.C103_locked`
* `Halo.C104_victim`
* `Halo.C104_attacker`
* `Halo.C104_alone`
* `Halo.C104_half`
* `Halo.C105_listed`
* `Halo.C105_sound_iff`
* `Halo.C105_future`
* `Halo.C106_indexer`
* `Halo.C106_minter`
* `Halo.C106_asker`
* `Halo.C106_lp_agrees`
* `Halo.C107_undated`
* `Halo.C107_history`
* `Halo.C108_asset_info`
* `Halo.C108_asset`
* `Halo.C108_pair_info`
* `Halo.C108_answers`
* `Halo.C108_number_is_no_amount`
* `Halo.C109_swaps_commute`
* `Halo.C109_same_change`
* `Halo.C109_order`
* `Halo.C110_owner_takes`
* `Halo.C110_nobody_else`
* `Halo.C110_whom_to_trust`
* `Halo.C111_restart_collects`
* `Halo.C111_orphan`
* `Halo.C112_only_asked`
* `Halo.C112_swap`
* `Halo.C112_withdraw`
* `Halo.C112_deposit`
* `Halo.C112_route`
* `Halo.C112_create`
* `Halo.C113_average_price`
* `Halo.C113_any_attack`
* `Halo.C113_share_of_trade`
* `Halo.C113_deposit_helps`
* `Halo.C114_quotes`
* `Halo.C114_swap`
* `Halo.C114_swap_payout`
* `Halo.C114_withdraw`
* `Halo.C114_withdraw_payout`
* `Halo.C114_deposit`
* `Halo.C114_deposit_credit`
* `Halo.C115_lp_in_pair_is_lost`
* `Halo.C115_supply_stays`
* `Halo.C115_never_first`
* `Halo.C115_permanent_liquidity`
* `Halo.C115_permanent_liquidity_18`
* `Halo.C116_project_may_be_trusted`
* `Halo.C116_approvals_lie_safe`
* `Halo.C116_message_names_the_price`
* `Halo.C117_every_moment`
* `Halo.C117_never_first`
* `Halo.C117_sleep`
* `Halo.C118_inside`
* `Halo.C118_outside`
* `Halo.C118_somebody_gains`
* `Halo.C118_history`
* `Halo.C119_whole`
* `Halo.C119_attempt`
* `Halo.C119_value`
* `Halo.C119_backed`
* `Halo.C120_claims`
* `Halo.C120_no_rush`
* `Halo.C120_no_waiting`
* `Halo.C120_still_open`
* `Halo.C120_all_leave`
* `Halo.C121_swap_iff`
* `Halo.C121_quote_is_paid`
* `Halo.C121_withdraw_iff`
* `Halo.C121_withdraw_exact`
* `Halo.C121_deposit_iff`
* `Halo.C121_deposit_exact`
* `Halo.C122_route_iff`
* `Halo.C122_route_pays`
* `Halo.C123_iff_by_hand`
* `Halo.C123_same_as_by_hand`
* `Halo.C123_quote_is_a_ceiling`
* `Halo.C124_direct_iff`
* `Halo.C124_direct_effect`
* `Halo.C124_iff`
* `Halo.C124_effect`
* `Halo.C124_nothing_left`
* `Halo.C125_any_assets`
* `Halo.C125_no_profit`
* `Halo.C125_coins`
* `Halo.C126_with_leaks`
* `Halo.C126_arbitrage`
* `Halo.C126_sleeper_with_leaks`
* `Halo.C126_sleeper`
* `Halo.C127_most`
* `Halo.C127_attained`
* `Halo.C127_best`
* `Halo.C127_somebody`
* `Halo.C128_sales0`
* `Halo.C128_sales1`
* `Halo.C128_split`
* `Halo.C129_share0`
* `Halo.C129_share1`
* `Halo.C129_worth0`
* `Halo.C129_worth1`
* `Halo.C129_arbitrage`
* `Halo.C129_sleeper`
* `Halo.C130_growth`
* `Halo.C130_sum`
* `Halo.C130_fees_against_loss`
* `Halo.C130_sleeper`
* `Halo.C131_between`
* `Halo.C131_orders`
* `Halo.C131_two`
* `Halo.C131_waiting`
* `Halo.C132_token_share`
* `Halo.C132_two_coins`
* `Halo.C132_withdraw_later`
* `Halo.C133_at_most`
* `Halo.C133_no_better`
* `Halo.C133_as_good`
* `Halo.C134_route`
* `Halo.C134_shallow`
* `Halo.C134_direct`
* `Halo.C135_reverse_route`
* `Halo.C135_minimum`
* `Halo.C136_first`
* `Halo.C136_tolerance_holds`
* `Halo.C136_with_leaks`
* `Halo.C136_worth`
* `Halo.C136_without_tolerance`
* `Halo.C137_savings`
* `Halo.C137_worth`
* `Halo.C138_no_attack_on_deposit`
* `Halo.C139_no_attack_on_withdrawal`
* `Halo.C140_no_attack_on_swap`
