import Verif.QueryCodec
/-! # One text for every message, query and answer

No property is proved here. Each `example` fixes the JSON text of one variant, with the names of its fields, as `#[cw_serde]` derives it from
`packages/haloswap/src/{pair,factory,router,token,asset}.rs` and from cw20 1.0.0, so that a name that is wrong both where it is written and
where it is read is noticed; that the text is read back is C83 and C84. At the end, the texts in the repository's `README.md` files. -/

namespace Halo
namespace Conform.Texts

/-- A text in pieces. -/
def texts (l : List String) : Str := l.flatMap asc

/-! ## Execute messages -/

example : writeExec (.transfer (asc "bob") 5) =
    texts ["{\"transfer\":{", "\"recipient\":\"bob\",", "\"amount\":\"5\"}}"] := by decide +kernel

example : writeExec (.burn 5) =
    asc "{\"burn\":{\"amount\":\"5\"}}" := by decide +kernel

example : writeExec (.send (asc "pair") 5 (.swap (some 1500000000000000000) (some 10000000000000000) (some (asc "bob")))) =
    texts ["{\"send\":{\"contract\":", "\"pair\",\"amount\":\"5\",", "\"msg\":", "\"eyJzd2FwIjp7ImJlbGl", "lZl9wcmljZSI6IjEuNSI", "sIm1heF9zcHJlYWQiOiI", "wLjAxIiwidG8iOiJib2I", "ifX0=\"}}"] := by decide +kernel

example : writeExec (.increaseAllowance (asc "bob") 5 none) =
    texts ["{", "\"increase_allowance\":{", "\"spender\":\"bob\",", "\"amount\":\"5\",", "\"expires\":null}}"] := by decide +kernel

example : writeExec (.increaseAllowance (asc "bob") 5 (some (.atHeight 77))) =
    texts ["{", "\"increase_allowance\":{", "\"spender\":\"bob\",", "\"amount\":\"5\",", "\"expires\":{", "\"at_height\":77}}}"] := by decide +kernel

example : writeExec (.decreaseAllowance (asc "bob") 5 (some (.atTime 1571797419879305533))) =
    texts ["{", "\"decrease_allowance\":{", "\"spender\":\"bob\",", "\"amount\":\"5\",", "\"expires\":{\"at_time\":", "\"1571797419879305533", "\"}}}"] := by decide +kernel

example : writeExec (.decreaseAllowance (asc "bob") 5 (some .never)) =
    texts ["{", "\"decrease_allowance\":{", "\"spender\":\"bob\",", "\"amount\":\"5\",", "\"expires\":{\"never\":{", "}}}}"] := by decide +kernel

example : writeExec (.transferFrom (asc "ann") (asc "bob") 5) =
    texts ["{\"transfer_from\":{", "\"owner\":\"ann\",", "\"recipient\":\"bob\",", "\"amount\":\"5\"}}"] := by decide +kernel

example : writeExec (.sendFrom (asc "ann") (asc "pair") 5 .withdrawLiquidity) =
    texts ["{\"send_from\":{\"owner\":", "\"ann\",\"contract\":", "\"pair\",\"amount\":\"5\",", "\"msg\":", "\"eyJ3aXRoZHJhd19saXF", "1aWRpdHkiOnt9fQ==\"}}"] := by decide +kernel

example : writeExec (.burnFrom (asc "ann") 5) =
    texts ["{\"burn_from\":{\"owner\":", "\"ann\",\"amount\":\"5\"}}"] := by decide +kernel

example : writeExec (.mint (asc "bob") 5) =
    texts ["{\"mint\":{\"recipient\":", "\"bob\",\"amount\":\"5\"}}"] := by decide +kernel

example : writeExec (.updateMinter (some (asc "bob"))) =
    texts ["{\"update_minter\":{", "\"new_minter\":\"bob\"}}"] := by decide +kernel

example : writeExec (.marketing) =
    texts ["{\"update_marketing\":{", "\"project\":null,", "\"description\":null,", "\"marketing\":null}}"] := by decide +kernel

example : writeExec (.receive (asc "bob") 5 (.swap (some 1500000000000000000) (some 10000000000000000) (some (asc "bob")))) =
    texts ["{\"receive\":{\"sender\":", "\"bob\",\"amount\":\"5\",", "\"msg\":", "\"eyJzd2FwIjp7ImJlbGl", "lZl9wcmljZSI6IjEuNSI", "sIm1heF9zcHJlYWQiOiI", "wLjAxIiwidG8iOiJib2I", "ifX0=\"}}"] := by decide +kernel

example : writeExec (.receive (asc "bob") 5 .withdrawLiquidity) =
    texts ["{\"receive\":{\"sender\":", "\"bob\",\"amount\":\"5\",", "\"msg\":", "\"eyJ3aXRoZHJhd19saXF", "1aWRpdHkiOnt9fQ==\"}}"] := by decide +kernel

example : writeExec (.provideLiquidity (⟨.token (asc "tok"), 10000000000⟩, ⟨.native (asc "uaura"), 500000000⟩) (some 50000000000000000) (some (asc "bob"))) =
    texts ["{\"provide_liquidity\":{", "\"assets\":[{\"info\":{", "\"token\":{", "\"contract_addr\":", "\"tok\"}},\"amount\":", "\"10000000000\"},{", "\"info\":{", "\"native_token\":{", "\"denom\":\"uaura\"}},", "\"amount\":", "\"500000000\"}],", "\"slippage_tolerance\":", "\"0.05\",\"receiver\":", "\"bob\"}}"] := by decide +kernel

example : writeExec (.receive (asc "bob") 5 (.executeSwapOperations [⟨.token (asc "tok"), .native (asc "uaura")⟩] (some 9) none)) =
    texts ["{\"receive\":{\"sender\":", "\"bob\",\"amount\":\"5\",", "\"msg\":", "\"eyJleGVjdXRlX3N3YXB", "fb3BlcmF0aW9ucyI6eyJ", "vcGVyYXRpb25zIjpbeyJ", "oYWxvX3N3YXAiOnsib2Z", "mZXJfYXNzZXRfaW5mbyI", "6eyJ0b2tlbiI6eyJjb25", "0cmFjdF9hZGRyIjoidG9", "rIn19LCJhc2tfYXNzZXR", "faW5mbyI6eyJuYXRpdmV", "fdG9rZW4iOnsiZGVub20", "iOiJ1YXVyYSJ9fX19XSw", "ibWluaW11bV9yZWNlaXZ", "lIjoiOSIsInRvIjpudWx", "sfX0=\"}}"] := by decide +kernel

example : writeExec (.executeSwapOperations [⟨.token (asc "tok"), .native (asc "uaura")⟩] (some 9) none) =
    texts ["{", "\"execute_swap_operat", "ions\":{\"operations\":[{", "\"halo_swap\":{", "\"offer_asset_info\":{", "\"token\":{", "\"contract_addr\":", "\"tok\"}},", "\"ask_asset_info\":{", "\"native_token\":{", "\"denom\":\"uaura\"}}}}],", "\"minimum_receive\":\"9\",", "\"to\":null}}"] := by decide +kernel

example : writeExec (.executeSwapOperation ⟨.token (asc "tok"), .native (asc "uaura")⟩ (some (asc "bob"))) =
    texts ["{", "\"execute_swap_operat", "ion\":{\"operation\":{", "\"halo_swap\":{", "\"offer_asset_info\":{", "\"token\":{", "\"contract_addr\":", "\"tok\"}},", "\"ask_asset_info\":{", "\"native_token\":{", "\"denom\":\"uaura\"}}}},", "\"to\":\"bob\"}}"] := by decide +kernel

example : writeExec (.assertMinimumReceive (.token (asc "tok")) 3 4 (asc "bob")) =
    texts ["{", "\"assert_minimum_rece", "ive\":{\"asset_info\":{", "\"token\":{", "\"contract_addr\":", "\"tok\"}},", "\"prev_balance\":\"3\",", "\"minimum_receive\":\"4\",", "\"receiver\":\"bob\"}}"] := by decide +kernel

example : writeExec (.updateConfig (some (asc "bob")) (some 321) (some 322)) =
    texts ["{\"update_config\":{", "\"owner\":\"bob\",", "\"token_code_id\":321,", "\"pair_code_id\":322}}"] := by decide +kernel

example : writeExec (.createPair (.token (asc "tok"), .native (asc "uaura")) ⟨[asc "bob", asc "eve"], 10000, 20000⟩) =
    texts ["{\"create_pair\":{", "\"asset_infos\":[{", "\"token\":{", "\"contract_addr\":", "\"tok\"}},{", "\"native_token\":{", "\"denom\":\"uaura\"}}],", "\"requirements\":{", "\"whitelist\":[\"bob\",", "\"eve\"],", "\"first_asset_minimum\":", "\"10000\",", "\"second_asset_minimu", "m\":\"20000\"}}}"] := by decide +kernel

example : writeExec (.addNativeTokenDecimals (asc "uaura") 6) =
    texts ["{", "\"add_native_token_de", "cimals\":{\"denom\":", "\"uaura\",\"decimals\":6}}"] := by decide +kernel

example : writeExec (.migratePair (asc "pair") (some 321)) =
    texts ["{\"migrate_pair\":{", "\"contract\":\"pair\",", "\"code_id\":321}}"] := by decide +kernel

/-! ## Instantiate messages -/

example : writeInst (.token ⟨asc "Halo", asc "HALO", 6, [(asc "bob", 30)], some ⟨asc "ann", some 20⟩⟩) =
    texts ["{\"name\":\"Halo\",", "\"symbol\":\"HALO\",", "\"decimals\":6,", "\"initial_balances\":[{", "\"address\":\"bob\",", "\"amount\":\"30\"}],", "\"mint\":{\"minter\":", "\"ann\",\"cap\":\"20\"}}"] := by decide +kernel

example : writeInst (.pair (.token (asc "tok"), .native (asc "uaura")) 123 (6, 7) ⟨[asc "bob", asc "eve"], 10000, 20000⟩) =
    texts ["{\"asset_infos\":[{", "\"token\":{", "\"contract_addr\":", "\"tok\"}},{", "\"native_token\":{", "\"denom\":\"uaura\"}}],", "\"token_code_id\":123,", "\"asset_decimals\":[6,", "7],\"requirements\":{", "\"whitelist\":[\"bob\",", "\"eve\"],", "\"first_asset_minimum\":", "\"10000\",", "\"second_asset_minimu", "m\":\"20000\"}}"] := by decide +kernel

example : writeInst (.factory 123 124) =
    texts ["{\"pair_code_id\":123,", "\"token_code_id\":124}"] := by decide +kernel

example : writeInst (.router (asc "fac")) =
    asc "{\"halo_factory\":\"fac\"}" := by decide +kernel

/-! ## Queries -/

example : writeQuery (.balance (asc "bob")) =
    texts ["{\"balance\":{\"address\":", "\"bob\"}}"] := by decide +kernel

example : writeQuery (.tokenInfo) =
    asc "{\"token_info\":{}}" := by decide +kernel

example : writeQuery (.minter) =
    asc "{\"minter\":{}}" := by decide +kernel

example : writeQuery (.allowance (asc "ann") (asc "bob")) =
    texts ["{\"allowance\":{\"owner\":", "\"ann\",\"spender\":", "\"bob\"}}"] := by decide +kernel

example : writeQuery (.allAllowances (asc "ann") (some (asc "bob")) (some 5)) =
    texts ["{\"all_allowances\":{", "\"owner\":\"ann\",", "\"start_after\":\"bob\",", "\"limit\":5}}"] := by decide +kernel

example : writeQuery (.allSpenderAllowances (asc "ann") none none) =
    texts ["{", "\"all_spender_allowan", "ces\":{\"spender\":\"ann\",", "\"start_after\":null,", "\"limit\":null}}"] := by decide +kernel

example : writeQuery (.allAccounts (some (asc "bob")) (some 5)) =
    texts ["{\"all_accounts\":{", "\"start_after\":\"bob\",", "\"limit\":5}}"] := by decide +kernel

example : writeQuery (.marketingInfo) =
    asc "{\"marketing_info\":{}}" := by decide +kernel

example : writeQuery (.downloadLogo) =
    asc "{\"download_logo\":{}}" := by decide +kernel

example : writeQuery (.pair) =
    asc "{\"pair\":{}}" := by decide +kernel

example : writeQuery (.pool) =
    asc "{\"pool\":{}}" := by decide +kernel

example : writeQuery (.simulation ⟨.token (asc "tok"), 7⟩) =
    texts ["{\"simulation\":{", "\"offer_asset\":{", "\"info\":{\"token\":{", "\"contract_addr\":", "\"tok\"}},\"amount\":", "\"7\"}}}"] := by decide +kernel

example : writeQuery (.reverseSimulation ⟨.native (asc "uaura"), 7⟩) =
    texts ["{", "\"reverse_simulation\":{", "\"ask_asset\":{\"info\":{", "\"native_token\":{", "\"denom\":\"uaura\"}},", "\"amount\":\"7\"}}}"] := by decide +kernel

example : writeQuery (.config) =
    asc "{\"config\":{}}" := by decide +kernel

example : writeQuery (.pairOf (.token (asc "tok"), .native (asc "uaura"))) =
    texts ["{\"pair\":{", "\"asset_infos\":[{", "\"token\":{", "\"contract_addr\":", "\"tok\"}},{", "\"native_token\":{", "\"denom\":\"uaura\"}}]}}"] := by decide +kernel

example : writeQuery (.pairs (some (.token (asc "tok"), .native (asc "uaura"))) (some 5)) =
    texts ["{\"pairs\":{", "\"start_after\":[{", "\"token\":{", "\"contract_addr\":", "\"tok\"}},{", "\"native_token\":{", "\"denom\":\"uaura\"}}],", "\"limit\":5}}"] := by decide +kernel

example : writeQuery (.nativeTokenDecimals (asc "uaura")) =
    texts ["{", "\"native_token_decima", "ls\":{\"denom\":\"uaura\"}}"] := by decide +kernel

example : writeQuery (.config) =
    asc "{\"config\":{}}" := by decide +kernel

example : writeQuery (.simulateSwapOperations 7 [⟨.token (asc "tok"), .native (asc "uaura")⟩]) =
    texts ["{", "\"simulate_swap_opera", "tions\":{", "\"offer_amount\":\"7\",", "\"operations\":[{", "\"halo_swap\":{", "\"offer_asset_info\":{", "\"token\":{", "\"contract_addr\":", "\"tok\"}},", "\"ask_asset_info\":{", "\"native_token\":{", "\"denom\":\"uaura\"}}}}]}}"] := by decide +kernel

example : writeQuery (.reverseSimulateSwapOperations 7 [⟨.token (asc "tok"), .native (asc "uaura")⟩]) =
    texts ["{", "\"reverse_simulate_sw", "ap_operations\":{", "\"ask_amount\":\"7\",", "\"operations\":[{", "\"halo_swap\":{", "\"offer_asset_info\":{", "\"token\":{", "\"contract_addr\":", "\"tok\"}},", "\"ask_asset_info\":{", "\"native_token\":{", "\"denom\":\"uaura\"}}}}]}}"] := by decide +kernel

/-! ## Answers -/

example : (balanceJ 5).print =
    asc "{\"balance\":\"5\"}" := by decide +kernel

example : (tokenInfoJ { name := asc "Halo", symbol := asc "HALO", decimals := 6, totalSupply := 30 }).print =
    texts ["{\"name\":\"Halo\",", "\"symbol\":\"HALO\",", "\"decimals\":6,", "\"total_supply\":\"30\"}"] := by decide +kernel

example : (minterOptJ (some ⟨asc "ann", none⟩)).print =
    texts ["{\"minter\":\"ann\",\"cap\":", "null}"] := by decide +kernel

example : (minterOptJ none).print =
    asc "null" := by decide +kernel

example : (allowanceJ ⟨5, .atHeight 7⟩).print =
    texts ["{\"allowance\":\"5\",", "\"expires\":{", "\"at_height\":7}}"] := by decide +kernel

example : (grantsJ (asc "spender") [(asc "bob", ⟨5, .never⟩)]).print =
    texts ["{\"allowances\":[{", "\"spender\":\"bob\",", "\"allowance\":\"5\",", "\"expires\":{\"never\":{", "}}}]}"] := by decide +kernel

example : (grantsJ (asc "owner") [(asc "bob", ⟨5, .never⟩)]).print =
    texts ["{\"allowances\":[{", "\"owner\":\"bob\",", "\"allowance\":\"5\",", "\"expires\":{\"never\":{", "}}}]}"] := by decide +kernel

example : (accountsJ [asc "ann", asc "bob"]).print =
    texts ["{\"accounts\":[\"ann\",", "\"bob\"]}"] := by decide +kernel

example : (pairInfoJ { assetInfos := (.token (asc "tok"), .native (asc "uaura")), contractAddr := asc "pair", liquidityToken := asc "lp", assetDecimals := (6, 7), requirements := ⟨[asc "bob", asc "eve"], 10000, 20000⟩ }).print =
    texts ["{\"asset_infos\":[{", "\"token\":{", "\"contract_addr\":", "\"tok\"}},{", "\"native_token\":{", "\"denom\":\"uaura\"}}],", "\"contract_addr\":", "\"pair\",", "\"liquidity_token\":", "\"lp\",\"asset_decimals\":", "[6,7],\"requirements\":{", "\"whitelist\":[\"bob\",", "\"eve\"],", "\"first_asset_minimum\":", "\"10000\",", "\"second_asset_minimu", "m\":\"20000\"}}"] := by decide +kernel

example : (poolJ { assets := (⟨.token (asc "tok"), 3⟩, ⟨.native (asc "uaura"), 4⟩), totalShare := 5 }).print =
    texts ["{\"assets\":[{\"info\":{", "\"token\":{", "\"contract_addr\":", "\"tok\"}},\"amount\":", "\"3\"},{\"info\":{", "\"native_token\":{", "\"denom\":\"uaura\"}},", "\"amount\":\"4\"}],", "\"total_share\":\"5\"}"] := by decide +kernel

example : (simJ (asc "return_amount") { amount := 1, spread := 2, commission := 3 }).print =
    texts ["{\"return_amount\":\"1\",", "\"spread_amount\":\"2\",", "\"commission_amount\":", "\"3\"}"] := by decide +kernel

example : (simJ (asc "offer_amount") { amount := 1, spread := 2, commission := 3 }).print =
    texts ["{\"offer_amount\":\"1\",", "\"spread_amount\":\"2\",", "\"commission_amount\":", "\"3\"}"] := by decide +kernel

example : (configJ (asc "ann", 321, 123)).print =
    texts ["{\"owner\":\"ann\",", "\"pair_code_id\":321,", "\"token_code_id\":123}"] := by decide +kernel

example : (pairsJ [{ assetInfos := (.token (asc "tok"), .native (asc "uaura")), contractAddr := asc "pair", liquidityToken := asc "lp", assetDecimals := (6, 7), requirements := ⟨[asc "bob", asc "eve"], 10000, 20000⟩ }]).print =
    texts ["{\"pairs\":[{", "\"asset_infos\":[{", "\"token\":{", "\"contract_addr\":", "\"tok\"}},{", "\"native_token\":{", "\"denom\":\"uaura\"}}],", "\"contract_addr\":", "\"pair\",", "\"liquidity_token\":", "\"lp\",\"asset_decimals\":", "[6,7],\"requirements\":{", "\"whitelist\":[\"bob\",", "\"eve\"],", "\"first_asset_minimum\":", "\"10000\",", "\"second_asset_minimu", "m\":\"20000\"}}]}"] := by decide +kernel

example : (decimalsJ 6).print =
    asc "{\"decimals\":6}" := by decide +kernel

example : (routerConfigJ (asc "fac")).print =
    asc "{\"halo_factory\":\"fac\"}" := by decide +kernel

example : (amountJ 7).print =
    asc "{\"amount\":\"7\"}" := by decide +kernel

/-! ## The texts in the README files -/

/-- `contracts/halo-token/README.md:91`. -/
example : readInst .token (texts ["{\"name\": ", "\"Halo Token\", ", "\"symbol\": \"HALO\", ", "\"decimals\": 6, ", "\"initial_balances\": [{", "\"address\": ", "\"aura1x86wp9ys67hylt", "cy3wmy4g8wkp3x7u98pk", "d4pj\", \"amount\": ", "\"3000000000000000\"}], ", "\"mint\": {\"minter\": ", "\"aura1txe6y425gk7ef8", "xp6r7ze4da09nvwfr2fh", "afjl\", \"cap\": ", "\"2000000000000000\"}}"]) =
    some (.token ⟨asc "Halo Token", asc "HALO", 6, [(asc "aura1x86wp9ys67hyltcy3wmy4g8wkp3x7u98pkd4pj", 3000000000000000)],
      some ⟨asc "aura1txe6y425gk7ef8xp6r7ze4da09nvwfr2fhafjl", some 2000000000000000⟩⟩) := by decide +kernel

/-- `contracts/halo-token/README.md:117`. -/
example : readQuery .token (texts ["{\"balance\":{\"address\":", "\"aura1x86wp9ys67hylt", "cy3wmy4g8wkp3x7u98pk", "d4pj\"}}"]) =
    some (.balance (asc "aura1x86wp9ys67hyltcy3wmy4g8wkp3x7u98pkd4pj")) := by decide +kernel

/-- `contracts/halo-token/README.md:127`: there is no such query; the token refuses it. -/
example : readQuery .token (asc "{\"cap\":{}}") = none := by decide +kernel

/-- `contracts/halo-token/README.md:136`. -/
example : readExec .token (texts ["{\"mint\":{\"recipient\":", "\"aura1x86wp9ys67hylt", "cy3wmy4g8wkp3x7u98pk", "d4pj\", \"amount\":", "\"1000000000000000\"}}"]) =
    some (.mint (asc "aura1x86wp9ys67hyltcy3wmy4g8wkp3x7u98pkd4pj") 1000000000000000) := by decide +kernel

/-- `contracts/halo-factory/README.md`: the texts for `InstantiateMsg`, `UpdateConfig`, `Config`, `Pair`, `Pairs` are read (white space
left out here); the one for `CreatePair` is refused, since its minimums are numbers instead of strings. -/
example : readInst .factory (texts ["{\"pair_code_id\": 123, ", "\"token_code_id\": 123}"]) = some (.factory 123 123) ∧
    readExec .factory (texts ["{\"update_config\": {", "\"owner\": \"aura...\", ", "\"token_code_id\": 321, ", "\"pair_code_id\": 321}}"]) = some (.updateConfig (some (asc "aura...")) (some 321) (some 321)) ∧
    readQuery .factory (asc "{\"pairs\": { }}") = some (.pairs none none) ∧
    readExec .factory (texts ["{\"create_pair\": {", "\"asset_infos\": [{", "\"token\": {", "\"contract_addr\": ", "\"aura...\"}}, {", "\"native_token\": {", "\"denom\": \"uaura\"}}], ", "\"requirements\": {", "\"whitelist\": ", "[\"aura...\", ", "\"aura...\"], ", "\"first_asset_minimum", "\": 10000, ", "\"second_asset_minimu", "m\": 20000}}}"]) = none := by decide +kernel

/-- `contracts/halo-pair/README.md`: `Pair` and `Pool` are read; `ReverseSimulation` is refused, for its name and its amount. -/
example : readQuery .pair (asc "{\"pair\": {}}") = some .pair ∧ readQuery .pair (asc "{\"pool\": {}}") = some .pool ∧
    readQuery .pair (texts ["{\"reverseSimulation\": ", "{\"ask_asset\": {", "\"info\": {", "\"native_token\": {", "\"denom\": \"uaura\"}}, ", "\"amount\": 500000000}}}"]) = none := by decide +kernel

end Conform.Texts
end Halo
