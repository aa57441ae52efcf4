{
 "claims": [
  {
   "property": "C01",
   "status": "partial",
   "theorems": [
    "Halo.C01_exact_partial",
    "Halo.C01_swap_tx_exact_partial",
    "Halo.C01_no_leak_partial",
    "Halo.C01_swaps_keep_product_partial",
    "Halo.C01_counterexample",
    "Halo.C01_partial",
    "Halo.C01_commission_partial",
    "Halo.C01_bound_partial",
    "Halo.C01_swap_tx_partial",
    "Halo.C01_swap_tx_bound_partial"
   ],
   "note": "False in general (C01_counterexample). Exact: the product falls iff a < o*a/(o+x) + 334 (no commission), o*a mod (o+x) > 0 and (o*a mod (o+x))*10^18 < o+x (C01_exact_partial, C01_swap_tx_exact_partial). Loss bound for all swaps; histories without such swaps keep the product."
  },
  {
   "property": "C02",
   "status": "proved",
   "theorems": [
    "Halo.C02_payable",
    "Halo.C02_never_drained",
    "Halo.C02_dust_drained",
    "Halo.C02_swap_tx"
   ],
   "note": ""
  },
  {
   "property": "C03",
   "status": "proved",
   "theorems": [
    "Halo.C03_swap_pays_return",
    "Halo.C03_commission_rate"
   ],
   "note": "Arithmetic, and at the entry point: exactly the reported return is paid."
  },
  {
   "property": "C04",
   "status": "proved",
   "theorems": [
    "Halo.C04_constant_product",
    "Halo.C04_exact",
    "Halo.C04_swap_tx"
   ],
   "note": ""
  },
  {
   "property": "C05",
   "status": "proved",
   "theorems": [
    "Halo.C05_monotone",
    "Halo.C05_antitone_offer_reserve",
    "Halo.C05_swap_tx"
   ],
   "note": ""
  },
  {
   "property": "C06",
   "status": "proved",
   "theorems": [
    "Halo.C06_round_trip",
    "Halo.C06_swap_tx"
   ],
   "note": ""
  },
  {
   "property": "C07",
   "status": "proved",
   "theorems": [
    "Halo.C07_quote_is_paid",
    "Halo.C07_quote_is_reported"
   ],
   "note": "Exact balance changes of the whole transaction and the reported numbers; token offers only, since native offers cannot be swapped at all (C25)."
  },
  {
   "property": "C08",
   "status": "proved",
   "theorems": [
    "Halo.C08_quote_returns_at_most",
    "Halo.C08_quote_plus_one_suffices",
    "Halo.C08_quote_plus_one_shortfall",
    "Halo.C08_quote_may_fall_short",
    "Halo.C08_reverse_query"
   ],
   "note": "Both halves of the statement; shortfall bound for larger requests; witness that the quote itself may fall short."
  },
  {
   "property": "C09",
   "status": "partial",
   "theorems": [
    "Halo.C09_counterexample",
    "Halo.C09_domain",
    "Halo.C09_partial"
   ],
   "note": "False in general (C09_counterexample: two kinds of panic). Exact success domain and a simple sufficient condition proved."
  },
  {
   "property": "C10",
   "status": "proved",
   "theorems": [
    "Halo.C10_max_spread",
    "Halo.C10_swap_tx"
   ],
   "note": ""
  },
  {
   "property": "C11",
   "status": "proved",
   "theorems": [
    "Halo.C11_belief_price",
    "Halo.C11_zero_spread",
    "Halo.C11_swap_tx"
   ],
   "note": ""
  },
  {
   "property": "C12",
   "status": "partial",
   "theorems": [
    "Halo.C12_counterexample",
    "Halo.C12_partial",
    "Halo.C12_equal_decimals_partial"
   ],
   "note": "False in general (C12_counterexample: the decimal scaling can overflow even without a limit). Exact condition proved; always passes for equal decimals."
  },
  {
   "property": "C13",
   "status": "proved",
   "theorems": [
    "Halo.C13_slippage",
    "Halo.C13_deposit_tx"
   ],
   "note": ""
  },
  {
   "property": "C14",
   "status": "partial",
   "theorems": [
    "Halo.C14_counterexample",
    "Halo.C14_partial"
   ],
   "note": "False with a tolerance (C14_counterexample: always refused when a reserve is empty). Proved without tolerance; C57_first_deposit_exact_partial is the exact condition."
  },
  {
   "property": "C15",
   "status": "proved",
   "theorems": [
    "Halo.C15_no_dilution",
    "Halo.C15_share_maximal",
    "Halo.C15_deposit_tx"
   ],
   "note": ""
  },
  {
   "property": "C16",
   "status": "proved",
   "theorems": [
    "Halo.C16_withdraw_fair",
    "Halo.C16_withdraw_tx",
    "Halo.C16_withdraw_tx_backing"
   ],
   "note": ""
  },
  {
   "property": "C17",
   "status": "proved",
   "theorems": [
    "Halo.C17_no_gain",
    "Halo.C17_first_takes_all",
    "Halo.C17_gain_iff",
    "Halo.C17_message",
    "Halo.C17_counterexample",
    "Halo.C17_tx"
   ],
   "note": "Proved for pools with LP tokens outstanding, as stated (C17_no_gain). Without LP tokens it is false (C17_counterexample), and the gain is exactly what was donated before (C17_first_takes_all, C17_gain_iff)."
  },
  {
   "property": "C18",
   "status": "proved",
   "theorems": [
    "Halo.C18_first_deposit",
    "Halo.C18_deposit_tx"
   ],
   "note": ""
  },
  {
   "property": "C19",
   "status": "proved",
   "theorems": [
    "Halo.C19_mints_shares",
    "Halo.C19_deposit_tx"
   ],
   "note": ""
  },
  {
   "property": "C20",
   "status": "partial",
   "theorems": [
    "Halo.C20_no_leak_partial",
    "Halo.C20_backed_partial",
    "Halo.C20_counterexample"
   ],
   "note": "False in general (C20_counterexample, a chain history). Proved for every history with adversarial third parties in which no swap is a leak (exactly the swaps that lower the product, C01_exact_partial); there are none when at most 10^18 units of each asset exist."
  },
  {
   "property": "C21",
   "status": "proved",
   "theorems": [
    "Halo.C21_constant_product"
   ],
   "note": "Refinement of the pair, over every history with hostile contracts and re-entrancy, to an independent constant-product pool machine; until the pair or an asset is migrated to foreign code by its admin."
  },
  {
   "property": "C22",
   "status": "partial",
   "theorems": [
    "Halo.C22_request_exact_partial",
    "Halo.C22_no_leak_partial",
    "Halo.C22_share_value_partial",
    "Halo.C22_counterexample"
   ],
   "note": "False in general (C22_counterexample). Exact for single requests: the value of a share falls iff the request is a leak (C22_request_exact_partial). Proved for every history without leaks and without a deposit made while there were no LP tokens; no leaks exist when at most 10^18 units of each asset exist."
  },
  {
   "property": "C23",
   "status": "proved",
   "theorems": [
    "Halo.C23_withdraw_only_lp",
    "Halo.C23_others_rejected",
    "Halo.C23_withdraw_tx"
   ],
   "note": ""
  },
  {
   "property": "C24",
   "status": "proved",
   "theorems": [
    "Halo.C24_swap_only_assets"
   ],
   "note": ""
  },
  {
   "property": "C25",
   "status": "partial",
   "theorems": [
    "Halo.C25_native_swap_refused",
    "Halo.C25_only_tokens_offered",
    "Halo.C25_router_native_hop",
    "Halo.C25_delivery_fails"
   ],
   "note": "False: the negation is proved. No entry point of a pair swaps a native coin, and the message the router sends for a native hop always fails."
  },
  {
   "property": "C26",
   "status": "proved",
   "theorems": [
    "Halo.C26_deposit_exact",
    "Halo.C26_deposit_tx"
   ],
   "note": "Messages emitted; the effect on balances is part of the C21 refinement."
  },
  {
   "property": "C27",
   "status": "proved",
   "theorems": [
    "Halo.C27_pair_immutable"
   ],
   "note": "For every reachable state and every later state; a pair that was migrated to foreign code is no longer a pair."
  },
  {
   "property": "C28",
   "status": "proved",
   "theorems": [
    "Halo.C28_balances_sum_to_supply",
    "Halo.C28_balance_le_supply"
   ],
   "note": "Over every reachable state; sum stated with Spec.SumsTo."
  },
  {
   "property": "C29",
   "status": "proved",
   "theorems": [
    "Halo.C29_pair_is_minter",
    "Halo.C29_supply_grows_only_by_deposit"
   ],
   "note": "Minter, cap and admin of the LP token in every reachable state; supply growth implies an executed ProvideLiquidity on that pair. The second disjunct of C29_pair_is_minter is a pair created with a foreign token code id."
  },
  {
   "property": "C30",
   "status": "proved",
   "theorems": [
    "Halo.C30_only_own_money",
    "Halo.C30_no_allowance"
   ],
   "note": "Every user that did not sign, every third-party behaviour; tokens migrated to foreign code are no longer halo tokens."
  },
  {
   "property": "C31",
   "status": "proved",
   "theorems": [
    "Halo.C31_tokens_valid",
    "Halo.C31_cap_forever",
    "Halo.C31_no_minter_no_growth",
    "Halo.C31_meta_immutable"
   ],
   "note": "State invariant plus the cap binding in all later states, even after minting is renounced."
  },
  {
   "property": "C32",
   "status": "proved",
   "theorems": [
    "Halo.C32_minimum_receive",
    "Halo.C32_minimum_receive_tx"
   ],
   "note": "Direct requests and requests sent along with tokens; any third-party contracts in between. Excludes only a migration of the router or of the target token to foreign code during the transaction."
  },
  {
   "property": "C33",
   "status": "proved",
   "theorems": [
    "Halo.C33_hop_only_router"
   ],
   "note": ""
  },
  {
   "property": "C34",
   "status": "proved",
   "theorems": [
    "Halo.C34_check_iff",
    "Halo.C34_accepted_iff",
    "Halo.C34_hook_accepted_iff",
    "Halo.C34_assets"
   ],
   "note": "Assets are compared by printed form, as in the code; C34_assets gives the version for assets."
  },
  {
   "property": "C35",
   "status": "proved",
   "theorems": [
    "Halo.C35_messages",
    "Halo.C35_hop_offers_all",
    "Halo.C35_hop_spends_all"
   ],
   "note": "Message lists, the single message of a hop over any contracts, and the exact balance changes of a hop over a deployed pair."
  },
  {
   "property": "C36",
   "status": "proved",
   "theorems": [
    "Halo.C36_route_pays_quote"
   ],
   "note": "For successful executions; the sites of the hops are the pairs the factory names."
  },
  {
   "property": "C37",
   "status": "proved",
   "theorems": [
    "Halo.C37_owner_only",
    "Halo.C37_settings_change_only_by_owner",
    "Halo.C37_not_without_owner"
   ],
   "note": "Entry-point check, settings over whole transactions (any owner), and settings plus pair code over transactions not signed by a user owner."
  },
  {
   "property": "C38",
   "status": "proved",
   "theorems": [
    "Halo.C38_one_entry_per_key",
    "Halo.C38_entries_stay",
    "Halo.C38_query_stays",
    "Halo.C38_never_shrinks"
   ],
   "note": "For every history, whatever code ids the factory is configured with; entries and answers to pair queries that exist between two transactions stay, one entry per key. Assumes only that the factory itself is not migrated to foreign code."
  },
  {
   "property": "C39",
   "status": "proved",
   "theorems": [
    "Halo.C39_query_symmetric",
    "Halo.C39_create_symmetric",
    "Halo.C39_duplicate_symmetric"
   ],
   "note": "Query, creation and duplicate detection, for all assets and registry states."
  },
  {
   "property": "C40",
   "status": "partial",
   "theorems": [
    "Halo.C40_key_partial",
    "Halo.C40_lookup_partial",
    "Halo.C40_counterexample",
    "Halo.C40_exact_partial",
    "Halo.C40_lookup_exact_partial"
   ],
   "note": "False in general (C40_counterexample: keys are concatenations). Exact: two pairs share an entry iff, in ascending order, their bytes agree or a part of a second asset's bytes has moved to the end of the other first asset (C40_exact_partial, C40_lookup_exact_partial). Proved when no asset's bytes begin with another's."
  },
  {
   "property": "C41",
   "status": "partial",
   "theorems": [
    "Halo.C41_entry_describes_pair_partial",
    "Halo.C41_answers_agree_partial",
    "Halo.C41_new_entry_partial",
    "Halo.C41_counterexample"
   ],
   "note": "Proved field by field, with admin and LP token, for every history in which the factory never creates a pair while one of its two code ids is foreign code. False otherwise: the factory keeps the pending creation in one storage slot, which a foreign LP token can overwrite by re-entering CreatePair (C41_counterexample)."
  },
  {
   "property": "C42",
   "status": "partial",
   "theorems": [
    "Halo.C42_sublist_partial",
    "Halo.C42_exact_partial",
    "Halo.C42_every_limit_partial",
    "Halo.C42_paging_partial",
    "Halo.C42_counterexample"
   ],
   "note": "False in general (C42_counterexample: range start appends byte 1). Exact: complete for a limit iff no full page ends just below the next key; complete for all limits iff no key k' satisfies k < k' <= k++[1]. What is listed is always a sublist in order. Equal-length keys are complete."
  },
  {
   "property": "C43",
   "status": "proved",
   "theorems": [
    "Halo.C43_page_size",
    "Halo.C43_first_page",
    "Halo.C43_later_page"
   ],
   "note": ""
  },
  {
   "property": "C44",
   "status": "partial",
   "theorems": [
    "Halo.C44_exact_partial",
    "Halo.C44_normal_form_partial",
    "Halo.C44_registry_partial",
    "Halo.C44_counterexample"
   ],
   "note": "False for address formats with several spellings (C44_counterexample). Exact: an accepted CreatePair joins an asset with itself iff two spellings of one token address are given (C44_exact_partial). Proved for normal-form addresses and for injective codecs."
  },
  {
   "property": "C45",
   "status": "proved",
   "theorems": [
    "Halo.C45_created_with_registered",
    "Halo.C45_registered_by_owner",
    "Halo.C45_initially_none",
    "Halo.C45_history"
   ],
   "note": "createPair step, registration step and empty start."
  },
  {
   "property": "C46",
   "status": "proved",
   "theorems": [
    "Halo.C46_print_parse",
    "Halo.C46_printed_text",
    "Halo.C46_uint_print_parse",
    "Halo.C46_print_injective"
   ],
   "note": ""
  },
  {
   "property": "C47",
   "status": "proved",
   "theorems": [
    "Halo.C47_widen",
    "Halo.C47_narrow",
    "Halo.C47_roundtrip",
    "Halo.C47_std_parse",
    "Halo.C47_std_plus"
   ],
   "note": ""
  },
  {
   "property": "C48",
   "status": "proved",
   "theorems": [
    "Halo.C48_widen",
    "Halo.C48_narrow",
    "Halo.C48_roundtrip"
   ],
   "note": ""
  },
  {
   "property": "C49",
   "status": "proved",
   "theorems": [
    "Halo.C49_uint_add",
    "Halo.C49_uint_sub",
    "Halo.C49_uint_mul",
    "Halo.C49_uint_multiply_ratio",
    "Halo.C49_uint_mul_dec",
    "Halo.C49_uint_div_dec",
    "Halo.C49_dec_add",
    "Halo.C49_dec_sub",
    "Halo.C49_dec_mul",
    "Halo.C49_dec_div",
    "Halo.C49_dec_from_ratio",
    "Halo.C49_dec_from_uint",
    "Halo.C49_dec_percent",
    "Halo.C49_dec_permille"
   ],
   "note": ""
  },
  {
   "property": "C50",
   "status": "proved",
   "theorems": [
    "Halo.C50_parse_exact",
    "Halo.C50_panic_only_overflow",
    "Halo.C50_refuses_other_bytes",
    "Halo.C50_empty_parts_accepted"
   ],
   "note": "The code also accepts an empty whole part although the doc comment disallows it (C50_empty_parts_accepted)."
  },
  {
   "property": "C51",
   "status": "proved",
   "theorems": [
    "Halo.C51_native_supply_conserved"
   ],
   "note": "Every transaction, every denomination."
  },
  {
   "property": "C52",
   "status": "proved",
   "theorems": [
    "Halo.C52_only_dust_lowers_value",
    "Halo.C52_only_dust_unbacks",
    "Halo.C52_dust_is_small"
   ],
   "note": "Every history, all asset sizes; the requests are those recorded in the trace of executed messages."
  },
  {
   "property": "C53",
   "status": "proved",
   "theorems": [
    "Halo.C53_creates_what_was_asked",
    "Halo.C53_query_answers"
   ],
   "note": "Holds in every reachable state when neither code id of the factory is foreign code. With foreign code see C41."
  },
  {
   "property": "C54",
   "status": "proved",
   "theorems": [
    "Halo.C54_swaps_extract_nothing"
   ],
   "note": "Dust swaps are excluded by hypothesis; what they can do is bounded by C52_dust_is_small."
  },
  {
   "property": "C55",
   "status": "proved",
   "theorems": [
    "Halo.C55_withdraw_iff",
    "Halo.C55_withdraw_live",
    "Halo.C55_withdraw_all"
   ],
   "note": "Equivalence for whole transactions over the chain model with adversarial contracts. Assumes native reserves below 2^128 (Uint128)."
  },
  {
   "property": "C56",
   "status": "proved",
   "theorems": [
    "Halo.C56_swap_iff",
    "Halo.C56_swap_live"
   ],
   "note": "Equivalence for whole transactions; the spread check is stated as inequalities of natural numbers (SpreadOk), the quote by the pair's simulation query."
  },
  {
   "property": "C57",
   "status": "partial",
   "theorems": [
    "Halo.C57_first_deposit_exact_partial",
    "Halo.C57_deposit_live",
    "Halo.C57_first_deposit_live_partial",
    "Halo.C57_first_deposit_overflow"
   ],
   "note": "Deposits into a pool with reserves: proved. First deposit: exact condition (C57_first_deposit_exact_partial); false of the code when d0*d1 >= 2^128 (C57_first_deposit_overflow)."
  },
  {
   "property": "C58",
   "status": "proved",
   "theorems": [
    "Halo.C58_reserves",
    "Halo.C58_quotes",
    "Halo.C58_after_swap",
    "Halo.C58_front_run"
   ],
   "note": "Formula, queries of any two reachable states, whole swap transactions."
  },
  {
   "property": "C59",
   "status": "proved",
   "theorems": [
    "Halo.C59_reverse_route",
    "Halo.C59_reverse_quote_falls_short"
   ],
   "note": "Upper bound for every route; witness that the quote can fall short."
  },
  {
   "property": "C60",
   "status": "proved",
   "theorems": [
    "Halo.C60_route_iff",
    "Halo.C60_route_live",
    "Halo.C60_route_leaves_nothing"
   ],
   "note": "Equivalence, gas bound and effect on all balances; native reserves below 2^128."
  },
  {
   "property": "C61",
   "status": "proved",
   "theorems": [
    "Halo.C61_stray_money_is_locked",
    "Halo.C61_factory_coins",
    "Halo.C61_stray_money_in_pair",
    "Halo.C61_router_coins"
   ],
   "note": "All histories; the router part is a statement about traces. Tokens in the router: see C62."
  },
  {
   "property": "C62",
   "status": "proved",
   "theorems": [
    "Halo.C62_sweep_iff",
    "Halo.C62_sweep_pays"
   ],
   "note": "Equivalence and effect on all balances."
  },
  {
   "property": "C63",
   "status": "proved",
   "theorems": [
    "Halo.C63_call_iff",
    "Halo.C63_call_effect",
    "Halo.C63_tx_iff",
    "Halo.C63_tx_effect",
    "Halo.C63_queries"
   ],
   "note": "Both directions at every call of every transaction started in a reachable state; for whole transactions when nobody is notified. Whether deadlines already past may be granted is a parameter (Api.refusesPast); proved for both values."
  },
  {
   "property": "C64",
   "status": "proved",
   "theorems": [
    "Halo.C64_has_owner",
    "Halo.C64_call_iff",
    "Halo.C64_call_effect",
    "Halo.C64_settings_iff",
    "Halo.C64_settings_effect",
    "Halo.C64_migrate_iff",
    "Halo.C64_queries"
   ],
   "note": "At every call of every transaction; whole transactions for users. Attached coins are included."
  },
  {
   "property": "C65",
   "status": "proved",
   "theorems": [
    "Halo.C65_create_iff",
    "Halo.C65_anyone_can_create"
   ],
   "note": "Both directions; the asset tokens are not third-party code and the code ids are the project's."
  },
  {
   "property": "C66",
   "status": "proved",
   "theorems": [
    "Halo.C66_pair_info",
    "Halo.C66_pool_iff",
    "Halo.C66_simulation_iff",
    "Halo.C66_reverse_iff",
    "Halo.C66_unknown_asset"
   ],
   "note": "Assets are native coins or halo tokens."
  },
  {
   "property": "C67",
   "status": "proved",
   "theorems": [
    "Halo.C67_deposit_exact",
    "Halo.C67_deposit_iff",
    "Halo.C67_order",
    "Halo.C67_tolerance_monotone"
   ],
   "note": "Equivalence with a closed-form specification; exact effect; order irrelevant; monotone in the tolerance."
  },
  {
   "property": "C68",
   "status": "proved",
   "theorems": [
    "Halo.C68_undo_loss"
   ],
   "note": "Loss bound for whole transactions; for the asset that limits the share (both if both do)."
  },
  {
   "property": "C69",
   "status": "partial",
   "theorems": [
    "Halo.C69_partial",
    "Halo.C69_fraction_partial",
    "Halo.C69_counterexample"
   ],
   "note": "False (C69_counterexample: with tolerance 0 a quarter of both assets is lost, after a donation by the holder of the only LP token). Proved with the extra term p/(T+s), the worth of one LP token; and for the fraction (1-t)*s/(s+1) instead of 1-t."
  },
  {
   "property": "C70",
   "status": "proved",
   "theorems": [
    "Halo.C70_fees_accrue",
    "Halo.C70_fee_tx"
   ],
   "note": "For histories and for single transactions."
  },
  {
   "property": "C71",
   "status": "partial",
   "theorems": [
    "Halo.C71_split_history_partial",
    "Halo.C71_split_partial",
    "Halo.C71_split_total_partial",
    "Halo.C71_split_gain_partial",
    "Halo.C71_counterexample"
   ],
   "note": "False (C71_counterexample: portions that pay less than 334 units are free of commission). Proved: the gain is at most the fee of the single swap, and at most 0.3%*X/(o+X) of the output plus one unit per portion plus one (C71_split_gain_partial); in all at most 997aX/(1000o+997X) plus one unit per portion (C71_split_total_partial)."
  },
  {
   "property": "C72",
   "status": "proved",
   "theorems": [
    "Halo.C72_only_by_admin",
    "Halo.C72_stays",
    "Halo.C72_frozen",
    "Halo.C72_role_is_never_given_away"
   ],
   "note": "For halo contracts of any kind as admin (a token, pair or router never migrates anything either); \"as long as\" cannot be dropped, since foreign code may do anything."
  },
  {
   "property": "C73",
   "status": "proved",
   "theorems": [
    "Halo.C73_announced",
    "Halo.C73_bookkeeping",
    "Halo.C73_paid",
    "Halo.C73_log_paid",
    "Halo.C73_factory_announced",
    "Halo.C73_created"
   ],
   "note": "events match requests one for one (C73_announced), bookkeeping bound, payments right after each announcement (C73_paid), factory storage announced and announcements true"
  },
  {
   "property": "C74",
   "status": "proved",
   "theorems": [
    "Halo.C74_indexer",
    "Halo.C74_action",
    "Halo.C74_text_determines",
    "Halo.C74_pair_history",
    "Halo.C74_digits_needed",
    "Halo.C74_dash_needed",
    "Halo.C74_kind_not_written"
   ],
   "note": "The exact ambiguities outside the stated conditions are proved as well (C74_digits_needed, C74_dash_needed, C74_kind_not_written)."
  },
  {
   "property": "C75",
   "status": "proved",
   "theorems": [
    "Halo.C75_split_deposit",
    "Halo.C75_split_withdrawal"
   ],
   "note": "Deposits: never more LP tokens. Withdrawals: gain and loss bounded by rounding; examples show the one-unit gain."
  },
  {
   "property": "C76",
   "status": "proved",
   "theorems": [
    "Halo.C76_route_below_spot",
    "Halo.C76_no_free_cycle",
    "Halo.C76_market"
   ],
   "note": "Routes and circles without exception; the market statement excludes dust swaps (as in C52) in its statement."
  },
  {
   "property": "C77",
   "status": "proved",
   "theorems": [
    "Halo.C77_more_in_more_out",
    "Halo.C77_there_and_back",
    "Halo.C77_same_as_by_hand",
    "Halo.C77_router_iff_by_hand"
   ],
   "note": "Route equals hand-made swaps for every account; possible iff; monotone; there and back never gains."
  },
  {
   "property": "C78",
   "status": "proved",
   "theorems": [
    "Halo.C78_token_iff",
    "Halo.C78_token_effect",
    "Halo.C78_factory_iff",
    "Halo.C78_factory_effect",
    "Halo.C78_router_iff",
    "Halo.C78_router_effect",
    "Halo.C78_pair_iff",
    "Halo.C78_pair_effect",
    "Halo.C78_own_message"
   ],
   "note": ""
  },
  {
   "property": "C79",
   "status": "proved",
   "theorems": [
    "Halo.C79_frozen_no_swap",
    "Halo.C79_frozen_until_withdrawal",
    "Halo.C79_small_never_frozen",
    "Halo.C79_sellable_iff",
    "Halo.C79_one_direction",
    "Halo.C79_worthless",
    "Halo.C79_can_trade",
    "Halo.C79_frozen_refuses"
   ],
   "note": "Frozen and lopsided pools, over histories and per transaction; the transaction theorems are for swaps that offer a token."
  },
  {
   "property": "C80",
   "status": "proved",
   "theorems": [
    "Halo.C80_bounded",
    "Halo.C80_gas",
    "Halo.C80_closed"
   ],
   "note": "Full statement: C80_bounded (bound from the text of the message, any state, gas and signer, success or failure, no foreign code called), C80_closed (hypothesis discharged when only the four contracts exist), C80_gas (that much gas suffices, same outcome)."
  },
  {
   "property": "C81",
   "status": "proved",
   "theorems": [
    "Halo.C81_holders",
    "Halo.C81_granted",
    "Halo.C81_received",
    "Halo.C81_malformed",
    "Halo.C81_page_size"
   ],
   "note": "Full statement: C81_holders (accounts, any reachable token), C81_granted, C81_received (allowances, any state), C81_page_size."
  },
  {
   "property": "C82",
   "status": "proved",
   "theorems": [
    "Halo.C82_stored",
    "Halo.C82_received",
    "Halo.C82_sent"
   ],
   "note": "Widths are listed in Spec/Wire independently of the model's range checks."
  },
  {
   "property": "C83",
   "status": "proved",
   "theorems": [
    "Halo.C83_delivered",
    "Halo.C83_roundtrip",
    "Halo.C83_image",
    "Halo.C83_text",
    "Halo.C83_inst_delivered",
    "Halo.C83_inst_image",
    "Halo.C83_sent",
    "Halo.C83_shared",
    "Halo.C83_direct"
   ],
   "note": ""
  },
  {
   "property": "C84",
   "status": "proved",
   "theorems": [
    "Halo.C84_requests",
    "Halo.C84_token",
    "Halo.C84_pair",
    "Halo.C84_factory",
    "Halo.C84_router",
    "Halo.C84_querier",
    "Halo.C84_tx",
    "Halo.C84_tx_typed",
    "Halo.C84_reachable"
   ],
   "note": "All queries of the four contracts as bytes; transactions of bytes equal typed ones; byte-reachable states are reachable."
  },
  {
   "property": "C85",
   "status": "proved",
   "theorems": [
    "Halo.C85_average_price",
    "Halo.C85_sandwich",
    "Halo.C85_limit_protects"
   ],
   "note": "Sandwich of three transactions, histories of swaps, and the protection by a belief price."
  },
  {
   "property": "C86",
   "status": "proved",
   "theorems": [
    "Halo.C86_withdraw_later",
    "Halo.C86_worth_at_entry_prices"
   ],
   "note": "Product and value at entry prices, over histories without leaks."
  },
  {
   "property": "C87",
   "status": "proved",
   "theorems": [
    "Halo.C87_factory_administers",
    "Halo.C87_distinct",
    "Halo.C87_one_factory",
    "Halo.C87_answers"
   ],
   "note": "Any code ids and third-party behaviour."
  },
  {
   "property": "C88",
   "status": "proved",
   "theorems": [
    "Halo.C88_bisimulation",
    "Halo.C88_reachable",
    "Halo.C88_complete",
    "Halo.C88_mirror"
   ],
   "note": "Both directions; addresses longer than 65535 bytes excepted where the key panics, and empty or that long addresses of new contracts."
  },
  {
   "property": "C89",
   "status": "proved",
   "theorems": [
    "Halo.C89_json",
    "Halo.C89_exec",
    "Halo.C89_inst",
    "Halo.C89_query",
    "Halo.C89_hook",
    "Halo.C89_answer",
    "Halo.C89_refused"
   ],
   "note": "Equivalences: the JSON reader and the grammar; execute, instantiate and query messages, payloads and answers and their shapes; everything else is refused."
  },
  {
   "property": "C90",
   "status": "proved",
   "theorems": [
    "Halo.C90_reverse",
    "Halo.C90_commission",
    "Halo.C90_average",
    "Halo.C90_reverse_query",
    "Halo.C90_route",
    "Halo.C90_reverse_route"
   ],
   "note": "For both queries of a pair, and for the router's two route queries by induction over the hops."
  },
  {
   "property": "C91",
   "status": "proved",
   "theorems": [
    "Halo.C91_swap",
    "Halo.C91_swap_payout",
    "Halo.C91_withdraw",
    "Halo.C91_withdraw_payout",
    "Halo.C91_deposit",
    "Halo.C91_deposit_credit"
   ],
   "note": "Token swaps, withdrawals and deposits by users; the payout statement excludes the pair itself as receiver."
  },
  {
   "property": "C92",
   "status": "proved",
   "theorems": [
    "Halo.C92_exact",
    "Halo.C92_host",
    "Halo.C92_unambiguous",
    "Halo.C92_pair_reply",
    "Halo.C92_refused"
   ],
   "note": "An equivalence for the reader; the host's message announces the address for any data."
  },
  {
   "property": "C93",
   "status": "proved",
   "theorems": [
    "Halo.C93_check",
    "Halo.C93_strings",
    "Halo.C93_checked",
    "Halo.C93_same",
    "Halo.C93_written"
   ],
   "note": "Equivalences for the check, the texts and the reader."
  },
  {
   "property": "C94",
   "status": "proved",
   "theorems": [
    "Halo.C94_small",
    "Halo.C94_share_value",
    "Halo.C94_backed",
    "Halo.C94_product",
    "Halo.C94_stay0",
    "Halo.C94_stay1"
   ],
   "note": "Bounds over whole histories; the fraction n/(R*10^18) with truncated subtraction says nothing once n >= R*10^18."
  },
  {
   "property": "C95",
   "status": "proved",
   "theorems": [
    "Halo.C95_replay",
    "Halo.C95_accounts",
    "Halo.C95_allowances"
   ],
   "note": ""
  },
  {
   "property": "C96",
   "status": "proved",
   "theorems": [
    "Halo.C96_gate",
    "Halo.C96_nobody",
    "Halo.C96_taken"
   ],
   "note": "C96_gate: no LP tokens without a deposit by a whitelisted sender naming both minimums, over whole histories. C96_nobody: empty whitelist. C96_taken: no second creation for the same assets anywhere in any later history."
  },
  {
   "property": "C97",
   "status": "proved",
   "theorems": [
    "Halo.C97_lower_price0",
    "Halo.C97_lower_price1",
    "Halo.C97_lower_price0_share",
    "Halo.C97_lower_price1_share",
    "Halo.C97_provider"
   ],
   "note": "C97_lower_price0/1: cost of lowering the price by swaps. C97_lower_price0/1_share: per LP token, with deposits and withdrawals. C97_provider: impermanent loss at arbitrary prices."
  },
  {
   "property": "C98",
   "status": "proved",
   "theorems": [
    "Halo.C98_history",
    "Halo.C98_supply",
    "Halo.C98_pair",
    "Halo.C98_registry"
   ],
   "note": "transfer of two-state claims to the chain of bytes; supply, pairs and registry as bytes"
  },
  {
   "property": "C99",
   "status": "proved",
   "theorems": [
    "Halo.C99_caught",
    "Halo.C99_bundle",
    "Halo.C99_later",
    "Halo.C99_reachable",
    "Halo.C99_machine",
    "Halo.C99_recorded",
    "Halo.C99_logged"
   ],
   "note": "both directions: single messages, bundles, histories, reachable states"
  },
  {
   "property": "C100",
   "status": "proved",
   "theorems": [
    "Halo.C100_books",
    "Halo.C100_origin",
    "Halo.C100_registered",
    "Halo.C100_owner"
   ],
   "note": "C100_books: storage equals the books kept from the executed messages; C100_origin, C100_registered, C100_owner trace entries, decimals and privileged calls back."
  },
  {
   "property": "C101",
   "status": "proved",
   "theorems": [
    "Halo.C101_decimal_read_back",
    "Halo.C101_uint_read_back",
    "Halo.C101_decimal_texts",
    "Halo.C101_uint_texts",
    "Halo.C101_panics",
    "Halo.C101_asset_stored",
    "Halo.C101_asset_read_back",
    "Halo.C101_asset_unchanged"
   ],
   "note": "Round trips, exact sets of texts, panics, and the two conversions of assets."
  },
  {
   "property": "C102",
   "status": "proved",
   "theorems": [
    "Halo.C102_reserve",
    "Halo.C102_supply",
    "Halo.C102_coins",
    "Halo.C102_tally"
   ],
   "note": ""
  },
  {
   "property": "C103",
   "status": "proved",
   "theorems": [
    "Halo.C103_swap",
    "Halo.C103_withdraw",
    "Halo.C103_deposit",
    "Halo.C103_locked"
   ],
   "note": "One asset may be any contract. Per call: the ceiling of a swap, the exact share on withdrawal, no dilution by a deposit; a contract that refuses calls locks the pair. Counterexamples to more are executed."
  },
  {
   "property": "C104",
   "status": "proved",
   "theorems": [
    "Halo.C104_victim",
    "Halo.C104_attacker",
    "Halo.C104_alone",
    "Halo.C104_half"
   ],
   "note": "Bounds on the victim's loss and the attacker's gain, for all states and amounts. That nearly half of a deposit can be lost this way, in spite of a tolerance of zero, is executed."
  },
  {
   "property": "C105",
   "status": "proved",
   "theorems": [
    "Halo.C105_listed",
    "Halo.C105_sound_iff",
    "Halo.C105_future",
    "Halo.C105_unlisted"
   ],
   "note": "C105_listed for both queries; C105_sound_iff is an equivalence; C105_future applies C21; C105_unlisted shows the list is needed. The hypothesis that no pair is created with foreign code is that of C41 and is needed there (C41_counterexample)."
  },
  {
   "property": "C106",
   "status": "proved",
   "theorems": [
    "Halo.C106_indexer",
    "Halo.C106_minter",
    "Halo.C106_asker",
    "Halo.C106_lp_agrees"
   ],
   "note": "The texts cw20-base adds to its responses are modelled from the library as known (it is not in the repository). Expirations of allowances are not announced, so the indexer knows amounts of allowances only; allowances that have expired count with their stored amount."
  },
  {
   "property": "C107",
   "status": "proved",
   "theorems": [
    "Halo.C107_clock",
    "Halo.C107_trade",
    "Halo.C107_undated",
    "Halo.C107_history"
   ],
   "note": "Compares executions with the same behaviour of third-party contracts and the same gas; third-party contracts that read the clock themselves are outside the comparison. C107_trade and C107_undated suppose that such contracts, if called, send no messages of the excluded kinds. The examples show that an allowance with an expiration does depend on the block."
  },
  {
   "property": "C108",
   "status": "proved",
   "theorems": [
    "Halo.C108_asset_info",
    "Halo.C108_asset",
    "Halo.C108_pair_info",
    "Halo.C108_answers",
    "Halo.C108_number_is_no_amount"
   ],
   "note": "Exact for AssetInfo and Asset; for PairInfo the published schema is weaker than the code, as stated."
  },
  {
   "property": "C109",
   "status": "proved",
   "theorems": [
    "Halo.C109_swaps_commute",
    "Halo.C109_same_change",
    "Halo.C109_order"
   ],
   "note": "Two deals of any kind at different pairs: same result in both orders; for swaps the other order is shown to go through"
  },
  {
   "property": "C110",
   "status": "proved",
   "theorems": [
    "Halo.C110_owner_takes",
    "Halo.C110_nobody_else",
    "Halo.C110_whom_to_trust"
   ],
   "note": "The power is proved for every reachable state and every list of native coins and halo tokens with a balance at the pair; that nobody else has it, for every history without the owner and the admins."
  },
  {
   "property": "C111",
   "status": "proved",
   "theorems": [
    "Halo.C111_restart_collects",
    "Halo.C111_orphan"
   ],
   "note": "Existence of both transactions and their exact effect, from every reachable state."
  },
  {
   "property": "C112",
   "status": "proved",
   "theorems": [
    "Halo.C112_settled",
    "Halo.C112_one_outcome",
    "Halo.C112_only_asked",
    "Halo.C112_no_foreign",
    "Halo.C112_swap",
    "Halo.C112_withdraw",
    "Halo.C112_deposit",
    "Halo.C112_route",
    "Halo.C112_create"
   ],
   "note": "Equality of whole chain states. The general theorems hold of any transaction; the particular ones supply the success with a mute oracle."
  },
  {
   "property": "C113",
   "status": "proved",
   "theorems": [
    "Halo.C113_average_price",
    "Halo.C113_any_attack",
    "Halo.C113_share_of_trade",
    "Halo.C113_deposit_helps"
   ],
   "note": "Three transactions in terms of the provider own accounts; histories and attacks in terms of the reserves of the pair, without leaks."
  },
  {
   "property": "C114",
   "status": "proved",
   "theorems": [
    "Halo.C114_quotes",
    "Halo.C114_swap",
    "Halo.C114_swap_payout",
    "Halo.C114_withdraw",
    "Halo.C114_withdraw_payout",
    "Halo.C114_deposit",
    "Halo.C114_deposit_credit"
   ],
   "note": "Two pairs in two reachable states; swaps of tokens only, since native coins cannot be swapped (C25)."
  },
  {
   "property": "C115",
   "status": "proved",
   "theorems": [
    "Halo.C115_lp_in_pair_is_lost",
    "Halo.C115_supply_stays",
    "Halo.C115_never_first",
    "Halo.C115_permanent_liquidity",
    "Halo.C115_permanent_liquidity_18"
   ],
   "note": ""
  },
  {
   "property": "C116",
   "status": "proved",
   "theorems": [
    "Halo.C116_project_may_be_trusted",
    "Halo.C116_approvals_lie_safe",
    "Halo.C116_message_names_the_price",
    "Halo.C116_coins",
    "Halo.C116_deposit_price",
    "Halo.C116_send_price"
   ],
   "note": "C116_project_may_be_trusted over all histories; C116_approvals_lie_safe for one who signs nothing; C116_message_names_the_price and C116_coins for one transaction; C116_deposit_price and C116_send_price say what the messages name. Approved spenders must be contracts running the project code (pair, router, factory or token)."
  },
  {
   "property": "C117",
   "status": "proved",
   "theorems": [
    "Halo.C117_every_moment",
    "Halo.C117_never_first",
    "Halo.C117_sleep"
   ],
   "note": "C117_sleep: value of tokens and pool shares over any history; C117_never_first and C117_every_moment: the LP supply and the tokens meanwhile. Swaps that leak are excluded (they do lower the value of shares, C94); coins held outside pools are not counted."
  },
  {
   "property": "C118",
   "status": "proved",
   "theorems": [
    "Halo.C118_inside",
    "Halo.C118_outside",
    "Halo.C118_somebody_gains",
    "Halo.C118_history"
   ],
   "note": "C118_inside: no gain of a unit within the band. C118_outside, C118_somebody_gains: a stated swap gains outside it, and can be made. C118_history: within the band nothing lowers the value behind an LP token by more than about 1.13 millionths."
  },
  {
   "property": "C119",
   "status": "proved",
   "theorems": [
    "Halo.C119_whole",
    "Halo.C119_attempt",
    "Halo.C119_value",
    "Halo.C119_backed"
   ],
   "note": "At every position of every trace, also of failing transactions, at which code of anybody but the pair, its LP token and its assets runs, the pair has the reserves and LP tokens after whole operations; value per LP token and backing follow. Replaced code of the pair or its assets is the exception in the conclusion."
  },
  {
   "property": "C120",
   "status": "proved",
   "theorems": [
    "Halo.C120_claims",
    "Halo.C120_no_rush",
    "Halo.C120_no_waiting",
    "Halo.C120_still_open",
    "Halo.C120_all_leave"
   ],
   "note": "Each reserve per LP token over histories without swaps and first deposits; the same withdrawal before and after; the gain of waiting for one other withdrawal; liveness afterwards; solvency when everybody leaves."
  },
  {
   "property": "C121",
   "status": "proved",
   "theorems": [
    "Halo.C121_swap_iff",
    "Halo.C121_quote_is_paid",
    "Halo.C121_withdraw_iff",
    "Halo.C121_withdraw_exact",
    "Halo.C121_deposit_iff",
    "Halo.C121_deposit_exact"
   ],
   "note": "Requests made in the middle of a transaction: swaps, withdrawals and deposits, when they go through and what they do. Excepted is replaced code of the pair or its assets."
  },
  {
   "property": "C122",
   "status": "proved",
   "theorems": [
    "Halo.C122_route_iff",
    "Halo.C122_route_pays"
   ],
   "note": "Contracts trade over routes as users do; as C60, at every moment of a transaction at which somebody else acts."
  },
  {
   "property": "C123",
   "status": "proved",
   "theorems": [
    "Halo.C123_iff_by_hand",
    "Halo.C123_same_as_by_hand",
    "Halo.C123_quote_is_a_ceiling",
    "Halo.C123_quote_too_high",
    "Halo.C123_quote_too_low"
   ],
   "note": "Routes over sound pairs with well-behaved assets, each hop offering what the previous one bought. Native reserves (and the receiver's balance of a native target if there is a minimum) below 2^128 for the iff. Quotes: ceiling for routes that never turn round at a pair; counterexamples for both directions otherwise."
  },
  {
   "property": "C124",
   "status": "proved",
   "theorems": [
    "Halo.C124_direct_iff",
    "Halo.C124_direct_effect",
    "Halo.C124_iff",
    "Halo.C124_effect",
    "Halo.C124_nothing_left",
    "Halo.C124_left_behind"
   ],
   "note": ""
  },
  {
   "property": "C125",
   "status": "proved",
   "theorems": [
    "Halo.C125_any_assets",
    "Halo.C125_no_profit",
    "Halo.C125_coins"
   ],
   "note": "Proved for any group, history and contract code, tokens and coins; stated hypotheses: no growth of supply, clean pairs, everybody else asleep, no leaking swap."
  },
  {
   "property": "C126",
   "status": "proved",
   "theorems": [
    "Halo.C126_with_leaks",
    "Halo.C126_arbitrage",
    "Halo.C126_sleeper_with_leaks",
    "Halo.C126_sleeper"
   ],
   "note": "At any prices and with leaking swaps; other hypotheses as in C125."
  },
  {
   "property": "C127",
   "status": "proved",
   "theorems": [
    "Halo.C127_most",
    "Halo.C127_attained",
    "Halo.C127_best",
    "Halo.C127_somebody"
   ],
   "note": "one swap, of a halo token; three swaps can gain more (example), see C126 and C128"
  },
  {
   "property": "C128",
   "status": "proved",
   "theorems": [
    "Halo.C128_sales0",
    "Halo.C128_sales1",
    "Halo.C128_split"
   ],
   "note": ""
  },
  {
   "property": "C129",
   "status": "proved",
   "theorems": [
    "Halo.C129_share0",
    "Halo.C129_share1",
    "Halo.C129_worth0",
    "Halo.C129_worth1",
    "Halo.C129_arbitrage",
    "Halo.C129_sleeper"
   ],
   "note": ""
  },
  {
   "property": "C130",
   "status": "proved",
   "theorems": [
    "Halo.C130_growth",
    "Halo.C130_sum",
    "Halo.C130_fees_against_loss",
    "Halo.C130_sleeper"
   ],
   "note": ""
  },
  {
   "property": "C131",
   "status": "proved",
   "theorems": [
    "Halo.C131_between",
    "Halo.C131_orders",
    "Halo.C131_two",
    "Halo.C131_waiting"
   ],
   "note": ""
  },
  {
   "property": "C132",
   "status": "proved",
   "theorems": [
    "Halo.C132_token_share",
    "Halo.C132_two_coins",
    "Halo.C132_withdraw_later"
   ],
   "note": ""
  },
  {
   "property": "C133",
   "status": "proved",
   "theorems": [
    "Halo.C133_at_most",
    "Halo.C133_no_better",
    "Halo.C133_as_good"
   ],
   "note": ""
  },
  {
   "property": "C134",
   "status": "proved",
   "theorems": [
    "Halo.C134_route",
    "Halo.C134_shallow",
    "Halo.C134_direct"
   ],
   "note": ""
  },
  {
   "property": "C135",
   "status": "proved",
   "theorems": [
    "Halo.C135_reverse_route",
    "Halo.C135_minimum"
   ],
   "note": ""
  },
  {
   "property": "C136",
   "status": "proved",
   "theorems": [
    "Halo.C136_first",
    "Halo.C136_tolerance_holds",
    "Halo.C136_with_leaks",
    "Halo.C136_worth",
    "Halo.C136_without_tolerance"
   ],
   "note": "Deposit with a tolerance, any state before, any history without leaks or new first deposits after; a sandwich shows the tolerance is needed."
  },
  {
   "property": "C137",
   "status": "proved",
   "theorems": [
    "Halo.C137_savings",
    "Halo.C137_worth"
   ],
   "note": ""
  },
  {
   "property": "C138",
   "status": "proved",
   "theorems": [
    "Halo.C138_no_attack_on_deposit"
   ],
   "note": ""
  },
  {
   "property": "C139",
   "status": "proved",
   "theorems": [
    "Halo.C139_no_attack_on_withdrawal"
   ],
   "note": ""
  },
  {
   "property": "C140",
   "status": "proved",
   "theorems": [
    "Halo.C140_no_attack_on_swap"
   ],
   "note": ""
  }
 ]
}