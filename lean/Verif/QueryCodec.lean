import Verif.Codec
import Verif.Listing
/-! # Queries as JSON

Requests and answers of all four contracts as texts, and the questions the contracts ask one another, as bytes
(`packages/haloswap/src/querier.rs`: `to_binary` of the request, `WasmQuery::Smart`, `from_slice` of the answer).

Types: `packages/haloswap/src/pair.rs:50-84`, `factory.rs:37-59, 65-74`, `router.rs:63-90`, `asset.rs:254-261`; from cw20 1.0.0 the
responses, from cw20-base 1.0.0 `QueryMsg`. Simplification: the bank module's answers are not JSON here. -/

namespace Halo

/-- Every query of the four contracts. The pair's `Pair {}` and the factory's `Pair { asset_infos }` have the same name on the wire;
`Config {}` is a query of the factory and of the router. -/
inductive QueryMsg where
  | balance (address : Str)
  | tokenInfo
  | minter
  | allowance (owner spender : Str)
  | allAllowances (owner : Str) (startAfter : Option Str) (limit : Option Nat)
  | allSpenderAllowances (spender : Str) (startAfter : Option Str) (limit : Option Nat)
  | allAccounts (startAfter : Option Str) (limit : Option Nat)
  | marketingInfo
  | downloadLogo
  | pair
  | pool
  | simulation (offerAsset : Asset)
  | reverseSimulation (askAsset : Asset)
  | config
  | pairOf (assetInfos : AssetInfo × AssetInfo)
  | pairs (startAfter : Option (AssetInfo × AssetInfo)) (limit : Option Nat)
  | nativeTokenDecimals (denom : Str)
  | simulateSwapOperations (offerAmount : Nat) (operations : List SwapOp)
  | reverseSimulateSwapOperations (askAmount : Nat) (operations : List SwapOp)
  deriving DecidableEq

/-- `u32`. -/
def B32 : Nat := 2 ^ 32

/-! ## Requests -/

/-- A variant without fields. -/
def unitCase (m : QueryMsg) (b : Json) : Option QueryMsg := (structOf [] b).map fun _ => m

/-- `AllAllowances` and `AllSpenderAllowances`. -/
def asListOf (who : Str) (f : Str → Option Str → Option Nat → QueryMsg) (b : Json) : Option QueryMsg := do
  let m ← structOf [who, asc "start_after", asc "limit"] b
  let w ← reqd asStr who m
  let startAfter ← optl asStr (asc "start_after") m
  let limit ← optl (asNum B32) (asc "limit") m
  return f w startAfter limit

/-- `AllAccounts`. -/
def asAllAccounts (b : Json) : Option QueryMsg := do
  let m ← structOf [asc "start_after", asc "limit"] b
  let startAfter ← optl asStr (asc "start_after") m
  let limit ← optl (asNum B32) (asc "limit") m
  return .allAccounts startAfter limit

/-- `Allowance`. -/
def asAllowanceQ (b : Json) : Option QueryMsg := do
  let m ← structOf [asc "owner", asc "spender"] b
  let owner ← reqd asStr (asc "owner") m
  let spender ← reqd asStr (asc "spender") m
  return .allowance owner spender

/-- cw20-base `QueryMsg`. -/
def tokenQueries : List (Str × (Json → Option QueryMsg)) := [
  (asc "balance", fun b => (structOf [asc "address"] b).bind fun m => (reqd asStr (asc "address") m).map .balance),
  (asc "token_info", unitCase .tokenInfo),
  (asc "minter", unitCase .minter),
  (asc "allowance", asAllowanceQ),
  (asc "all_allowances", asListOf (asc "owner") .allAllowances),
  (asc "all_spender_allowances", asListOf (asc "spender") .allSpenderAllowances),
  (asc "all_accounts", asAllAccounts),
  (asc "marketing_info", unitCase .marketingInfo),
  (asc "download_logo", unitCase .downloadLogo)]

/-- The pair's `QueryMsg` (`pair.rs:50-61`). -/
def pairQueries : List (Str × (Json → Option QueryMsg)) := [
  (asc "pair", unitCase .pair),
  (asc "pool", unitCase .pool),
  (asc "simulation", fun b => (structOf [asc "offer_asset"] b).bind fun m => (reqd asAsset (asc "offer_asset") m).map .simulation),
  (asc "reverse_simulation", fun b => (structOf [asc "ask_asset"] b).bind fun m =>
    (reqd asAsset (asc "ask_asset") m).map .reverseSimulation)]

/-- `Pairs` (`factory.rs:44-48`). -/
def asPairsQ (b : Json) : Option QueryMsg := do
  let m ← structOf [asc "start_after", asc "limit"] b
  let startAfter ← optl (asTwo asInfo) (asc "start_after") m
  let limit ← optl (asNum B32) (asc "limit") m
  return .pairs startAfter limit

/-- The factory's `QueryMsg` (`factory.rs:37-51`). -/
def factoryQueries : List (Str × (Json → Option QueryMsg)) := [
  (asc "config", unitCase .config),
  (asc "pair", fun b => (structOf [asc "asset_infos"] b).bind fun m => (reqd (asTwo asInfo) (asc "asset_infos") m).map .pairOf),
  (asc "pairs", asPairsQ),
  (asc "native_token_decimals", fun b => (structOf [asc "denom"] b).bind fun m =>
    (reqd asStr (asc "denom") m).map .nativeTokenDecimals)]

/-- `SimulateSwapOperations` and `ReverseSimulateSwapOperations` (`router.rs:69-77`). -/
def asRouteQ (amount : Str) (f : Nat → List SwapOp → QueryMsg) (b : Json) : Option QueryMsg := do
  let m ← structOf [amount, asc "operations"] b
  let a ← reqd asU128 amount m
  let operations ← reqd (asVec asOp) (asc "operations") m
  return f a operations

/-- The router's `QueryMsg` (`router.rs:63-78`). -/
def routerQueries : List (Str × (Json → Option QueryMsg)) := [
  (asc "config", unitCase .config),
  (asc "simulate_swap_operations", asRouteQ (asc "offer_amount") .simulateSwapOperations),
  (asc "reverse_simulate_swap_operations", asRouteQ (asc "ask_amount") .reverseSimulateSwapOperations)]

/-- The query a contract reads. -/
def readQuery (k : Kind) (b : Bytes) : Option QueryMsg :=
  (Json.parse b).bind (match k with
    | .token => tagged tokenQueries
    | .pair => tagged pairQueries
    | .factory => tagged factoryQueries
    | .router => tagged routerQueries
    | .other => fun _ => none)

/-- A list request. -/
def listOfJ (tag who w : Str) (startAfter : Option Str) (limit : Option Nat) : Json :=
  variant tag (obj [(who, .str w), (asc "start_after", optJ .str startAfter), (asc "limit", optJ .num limit)])

/-- Queries as written by `to_binary`. -/
def queryJ : QueryMsg → Json
  | .balance a => variant (asc "balance") (obj [(asc "address", .str a)])
  | .tokenInfo => variant (asc "token_info") (obj [])
  | .minter => variant (asc "minter") (obj [])
  | .allowance o s => variant (asc "allowance") (obj [(asc "owner", .str o), (asc "spender", .str s)])
  | .allAllowances o s l => listOfJ (asc "all_allowances") (asc "owner") o s l
  | .allSpenderAllowances o s l => listOfJ (asc "all_spender_allowances") (asc "spender") o s l
  | .allAccounts s l => variant (asc "all_accounts") (obj [(asc "start_after", optJ .str s), (asc "limit", optJ .num l)])
  | .marketingInfo => variant (asc "marketing_info") (obj [])
  | .downloadLogo => variant (asc "download_logo") (obj [])
  | .pair => variant (asc "pair") (obj [])
  | .pool => variant (asc "pool") (obj [])
  | .simulation a => variant (asc "simulation") (obj [(asc "offer_asset", assetJ a)])
  | .reverseSimulation a => variant (asc "reverse_simulation") (obj [(asc "ask_asset", assetJ a)])
  | .config => variant (asc "config") (obj [])
  | .pairOf is => variant (asc "pair") (obj [(asc "asset_infos", twoJ infoJ is)])
  | .pairs s l => variant (asc "pairs") (obj [(asc "start_after", optJ (twoJ infoJ) s), (asc "limit", optJ .num l)])
  | .nativeTokenDecimals d => variant (asc "native_token_decimals") (obj [(asc "denom", .str d)])
  | .simulateSwapOperations a ops =>
    variant (asc "simulate_swap_operations") (obj [(asc "offer_amount", u128J a), (asc "operations", vecJ opJ ops)])
  | .reverseSimulateSwapOperations a ops =>
    variant (asc "reverse_simulate_swap_operations") (obj [(asc "ask_amount", u128J a), (asc "operations", vecJ opJ ops)])

/-- Queries as written by `to_binary`. -/
def writeQuery (m : QueryMsg) : Bytes := (queryJ m).print

/-! ## Answers -/

/-- A struct with one field. -/
def oneOf {α : Type} (k : Str) (f : Json → Option α) (j : Json) : Option α := (structOf [k] j).bind fun m => reqd f k m

/-- cw20 `BalanceResponse`. -/
def balanceJ (n : Nat) : Json := obj [(asc "balance", u128J n)]
def asBalance : Json → Option Nat := oneOf (asc "balance") asU128

/-- cw20 `TokenInfoResponse`. -/
def tokenInfoJ (t : TokenInfoResp) : Json :=
  obj [(asc "name", .str t.name), (asc "symbol", .str t.symbol), (asc "decimals", .num t.decimals), (asc "total_supply", u128J t.totalSupply)]
def asTokenInfo (j : Json) : Option TokenInfoResp := do
  let m ← structOf [asc "name", asc "symbol", asc "decimals", asc "total_supply"] j
  let name ← reqd asStr (asc "name") m
  let symbol ← reqd asStr (asc "symbol") m
  let decimals ← reqd (asNum 256) (asc "decimals") m
  let totalSupply ← reqd asU128 (asc "total_supply") m
  return { name, symbol, decimals, totalSupply }

/-- cw20 `MinterResponse`, optional. -/
def minterOptJ (o : Option MinterData) : Json := optJ (fun m => minterJ ⟨m.minter, m.cap⟩) o
def asMinterOpt (j : Json) : Option (Option MinterData) := (nullable asMinter j).map fun o => o.map fun m => ⟨m.minter, m.cap⟩

/-- cw20 `AllowanceResponse`. -/
def allowanceJ (a : Allowance) : Json := obj [(asc "allowance", u128J a.amount), (asc "expires", expirationJ a.expires)]
def asAllowanceA (j : Json) : Option Allowance := do
  let m ← structOf [asc "allowance", asc "expires"] j
  let amount ← reqd asU128 (asc "allowance") m
  let expires ← reqd asExpiration (asc "expires") m
  return ⟨amount, expires⟩

/-- cw20 `AllowanceInfo` (`who` is `spender`) and `SpenderAllowanceInfo` (`who` is `owner`). -/
def grantJ (who : Str) (e : Str × Allowance) : Json :=
  obj [(who, .str e.1), (asc "allowance", u128J e.2.amount), (asc "expires", expirationJ e.2.expires)]
def asGrant (who : Str) (j : Json) : Option (Str × Allowance) := do
  let m ← structOf [who, asc "allowance", asc "expires"] j
  let w ← reqd asStr who m
  let amount ← reqd asU128 (asc "allowance") m
  let expires ← reqd asExpiration (asc "expires") m
  return (w, ⟨amount, expires⟩)

/-- cw20 `AllAllowancesResponse` and `AllSpenderAllowancesResponse`. -/
def grantsJ (who : Str) (l : List (Str × Allowance)) : Json := obj [(asc "allowances", vecJ (grantJ who) l)]
def asGrants (who : Str) : Json → Option (List (Str × Allowance)) := oneOf (asc "allowances") (asVec (asGrant who))

/-- cw20 `AllAccountsResponse`. -/
def accountsJ (l : List Str) : Json := obj [(asc "accounts", vecJ .str l)]
def asAccounts : Json → Option (List Str) := oneOf (asc "accounts") (asVec asStr)

/-- cw20 `MarketingInfoResponse::default()`: halo-token never stores any (`halo-token/src/contract.rs:19-61`). -/
def noMarketingJ : Json :=
  obj [(asc "project", .null), (asc "description", .null), (asc "logo", .null), (asc "marketing", .null)]

/-- `PairInfo` (`asset.rs:254-261`). -/
def pairInfoJ (p : PairInfo) : Json :=
  obj [(asc "asset_infos", twoJ infoJ p.assetInfos), (asc "contract_addr", .str p.contractAddr),
    (asc "liquidity_token", .str p.liquidityToken), (asc "asset_decimals", twoJ .num p.assetDecimals),
    (asc "requirements", requirementsJ p.requirements)]
def asPairInfo (j : Json) : Option PairInfo := do
  let m ← structOf [asc "asset_infos", asc "contract_addr", asc "liquidity_token", asc "asset_decimals", asc "requirements"] j
  let assetInfos ← reqd (asTwo asInfo) (asc "asset_infos") m
  let contractAddr ← reqd asStr (asc "contract_addr") m
  let liquidityToken ← reqd asStr (asc "liquidity_token") m
  let assetDecimals ← reqd (asTwo (asNum 256)) (asc "asset_decimals") m
  let requirements ← reqd asRequirements (asc "requirements") m
  return { assetInfos, contractAddr, liquidityToken, assetDecimals, requirements }

/-- `PoolResponse` (`pair.rs:64-68`). -/
def poolJ (p : PoolResp) : Json := obj [(asc "assets", twoJ assetJ p.assets), (asc "total_share", u128J p.totalShare)]
def asPool (j : Json) : Option PoolResp := do
  let m ← structOf [asc "assets", asc "total_share"] j
  let assets ← reqd (asTwo asAsset) (asc "assets") m
  let totalShare ← reqd asU128 (asc "total_share") m
  return { assets, totalShare }

/-- `SimulationResponse` (`first` is `return_amount`) and `ReverseSimulationResponse` (`first` is `offer_amount`)
(`pair.rs:71-84`). -/
def simJ (first : Str) (r : SimResp) : Json :=
  obj [(first, u128J r.amount), (asc "spread_amount", u128J r.spread), (asc "commission_amount", u128J r.commission)]
def asSim (first : Str) (j : Json) : Option SimResp := do
  let m ← structOf [first, asc "spread_amount", asc "commission_amount"] j
  let amount ← reqd asU128 first m
  let spread ← reqd asU128 (asc "spread_amount") m
  let commission ← reqd asU128 (asc "commission_amount") m
  return { amount, spread, commission }

/-- The factory's `ConfigResponse` (`factory.rs:54-59`): owner, pair code id, token code id. -/
def configJ (c : Addr × Nat × Nat) : Json :=
  obj [(asc "owner", .str c.1), (asc "pair_code_id", .num c.2.1), (asc "token_code_id", .num c.2.2)]
def asConfig (j : Json) : Option (Addr × Nat × Nat) := do
  let m ← structOf [asc "owner", asc "pair_code_id", asc "token_code_id"] j
  let owner ← reqd asStr (asc "owner") m
  let pairCodeId ← reqd (asNum B64) (asc "pair_code_id") m
  let tokenCodeId ← reqd (asNum B64) (asc "token_code_id") m
  return (owner, pairCodeId, tokenCodeId)

/-- `PairsResponse` (`factory.rs:66-69`). -/
def pairsJ (l : List PairInfo) : Json := obj [(asc "pairs", vecJ pairInfoJ l)]
def asPairs : Json → Option (List PairInfo) := oneOf (asc "pairs") (asVec asPairInfo)

/-- `NativeTokenDecimalsResponse` (`factory.rs:71-74`). -/
def decimalsJ (n : Nat) : Json := obj [(asc "decimals", .num n)]
def asDecimals : Json → Option Nat := oneOf (asc "decimals") (asNum 256)

/-- The router's `ConfigResponse` (`router.rs:81-84`). -/
def routerConfigJ (f : Str) : Json := obj [(asc "halo_factory", .str f)]
def asRouterConfig : Json → Option Str := oneOf (asc "halo_factory") asStr

/-- `SimulateSwapOperationsResponse` (`router.rs:87-90`), for both directions. -/
def amountJ (n : Nat) : Json := obj [(asc "amount", u128J n)]
def asAmount : Json → Option Nat := oneOf (asc "amount") asU128

/-! ## The `query` entry points -/

/-- The token's `query` (`halo-token/src/contract.rs:73-76`, cw20-base `contract.rs`). -/
def Token.answer (api : Api) (st : TokenState) : QueryMsg → R Json
  | .balance a => return balanceJ (← Token.queryBalance api st a)
  | .tokenInfo => return tokenInfoJ (Token.queryTokenInfo st)
  | .minter => return minterOptJ (Token.queryMinter st)
  | .allowance o s => do
    let o ← api.validate o
    let s ← api.validate s
    return allowanceJ (Token.queryAllowance st o s)
  | .allAllowances o s l => return grantsJ (asc "spender") (← Token.queryOwnerAllowances api st o s l)
  | .allSpenderAllowances o s l => return grantsJ (asc "owner") (← Token.querySpenderAllowances api st o s l)
  | .allAccounts s l => return accountsJ (Token.queryAllAccounts st s l)
  | .marketingInfo => return noMarketingJ
  | .downloadLogo => .error .notFound
  | _ => .error .parse

/-- The pair's `query` (`halo-pair/src/contract.rs:480-491`). -/
def Pair.answer (api : Api) (q : Querier) (st : Pair.State) : QueryMsg → R Json
  | .pair => return pairInfoJ (← Pair.queryPairInfo api st)
  | .pool => return poolJ (← Pair.queryPool api q st)
  | .simulation a => return simJ (asc "return_amount") (← Pair.querySimulation api q st a)
  | .reverseSimulation a => return simJ (asc "offer_amount") (← Pair.queryReverseSimulation api q st a)
  | _ => .error .parse

/-- The factory's `query` (`halo-factory/src/contract.rs:264-276`). -/
def Factory.answer (api : Api) (st : Factory.State) : QueryMsg → R Json
  | .config => return configJ (← Factory.queryConfig api st)
  | .pairOf is => return pairInfoJ (← Factory.queryPair api st is)
  | .pairs s l => return pairsJ (← Factory.queryPairs api st s l)
  | .nativeTokenDecimals d => return decimalsJ (← Factory.queryNativeTokenDecimals st d)
  | _ => .error .parse

/-- The router's `query` (`halo-router/src/contract.rs:204-219`). -/
def Router.answer (api : Api) (q : Querier) (st : Router.State) : QueryMsg → R Json
  | .config => return routerConfigJ (← Router.queryConfig api st)
  | .simulateSwapOperations a ops => return amountJ (← Router.simulateSwapOperations api q st a ops)
  | .reverseSimulateSwapOperations a ops => return amountJ (← Router.reverseSimulateSwapOperations api q st a ops)
  | _ => .error .parse

/-- A contract reads a request and writes its answer. -/
def answerBytes (k : Kind) (f : QueryMsg → R Json) (b : Bytes) : R Bytes := do
  let m ← okOr (readQuery k b) .parse
  let j ← f m
  return j.print

/-! ## Asking -/

/-- `querier.query(&QueryRequest::Wasm(WasmQuery::Smart { contract_addr, msg }))`: the request is written, the answer read. -/
def ask {α : Type} (smart : Str → Bytes → R Bytes) (a : Str) (m : QueryMsg) (f : Json → Option α) : R α := do
  let b ← smart a (writeQuery m)
  okOr ((Json.parse b).bind f) .parse

/-- The questions of `querier.rs`, asked with bytes. -/
def byteQuerier (bank : Addr → Denom → R Nat) (smart : Str → Bytes → R Bytes) : Querier where
  balance := bank
  tokenBalance t a := ask smart t (.balance a) asBalance
  tokenInfo t := ask smart t .tokenInfo asTokenInfo
  nativeDecimals f d := ask smart f (.nativeTokenDecimals d) asDecimals
  pairInfo f is := ask smart f (.pairOf is) asPairInfo
  pairInfoFromPair p := ask smart p .pair asPairInfo
  simulate p a := ask smart p (.simulation a) (asSim (asc "return_amount"))
  reverseSimulate p a := ask smart p (.reverseSimulation a) (asSim (asc "offer_amount"))

/-- The bank's answer. -/
def bankAnswer (w : World) (a : Addr) (d : Denom) : R Nat := chk128 (.ok (w.bal d a))

/-- A querier that answers nothing. -/
def noQuerier : Querier := byteQuerier (fun _ _ => .error .notFound) (fun _ _ => .error .notFound)

/-- Smart queries, at depth `n` of queries asked while answering queries (the host's limit): a contract answers from its storage,
asking others if need be; `foreign` answers for third-party contracts. -/
def smart (c : Chain) (foreign : Str → Bytes → R Bytes) (w : World) : Nat → Str → Bytes → R Bytes
  | n, a, b => do
    let q := match n with
      | 0 => noQuerier
      | n + 1 => byteQuerier (bankAnswer w) (smart c foreign w n)
    match ← lookState c w a with
    | .token s => answerBytes .token (Token.answer c.api s) b
    | .pair s => answerBytes .pair (Pair.answer c.api q s) b
    | .factory s => answerBytes .factory (Factory.answer c.api s) b
    | .router s => answerBytes .router (Router.answer c.api q s) b
    | .other => foreign a b

/-- What the contracts see when they ask: queries nested `n` deep. -/
def wireQuerier (c : Chain) (foreign : Str → Bytes → R Bytes) (w : World) (n : Nat) : Querier :=
  byteQuerier (bankAnswer w) (smart c foreign w n)

/-- The answers of third-party contracts as typed values: what can be read of the bytes. -/
def heardQuerier (foreign : Str → Bytes → R Bytes) : Querier := byteQuerier (fun _ _ => .error .notFound) foreign

end Halo
