import Verif.DecStr
/-!
# Shared types: assets, messages, the host interface

`packages/haloswap/src/{asset,pair,factory,router,token,querier}.rs`.
Rust arrays `[T; 2]` are Lean pairs `T × T`.
-/

namespace Halo

/-! ## Host API -/

/-- `cosmwasm_std::Api` restricted to what the contracts use. `canon`/`human` are the host's
`addr_canonicalize` / `addr_humanize`; `none` is an error of the host. `refusesPast` is not part of it: it says whether the
cw20-base the tokens are linked with refuses to grant an allowance until a moment already past. Versions differ, and the claims
are proved for both kinds. -/
structure Api where
  canon : Str → Option Bytes
  human : Bytes → Option Str
  refusesPast : Bool := false

/-- `Api::addr_canonicalize`. -/
def Api.canonicalize (api : Api) (s : Str) : R Bytes := okOr (api.canon s) .addr
/-- `Api::addr_humanize`. -/
def Api.humanize (api : Api) (b : Bytes) : R Addr := okOr (api.human b) .addr
/-- `Api::addr_validate` as implemented by the host (cosmwasm-vm): canonicalize, humanize, and the
result must be the input. -/
def Api.validate (api : Api) (s : Str) : R Addr := do
  let c ← api.canonicalize s
  let h ← api.humanize c
  require (h = s) .addr
  return s

/-- `cosmwasm_std::Coin`. -/
structure Coin where
  denom : Denom
  amount : Nat
  deriving DecidableEq, Repr

/-! ## Assets (`packages/haloswap/src/asset.rs`) -/

/-- `AssetInfo` (`asset.rs:101-105`). -/
inductive AssetInfo where
  | token (contractAddr : Str)
  | native (denom : Str)
  deriving DecidableEq, Repr

/-- `Asset` (`asset.rs:11-15`). -/
structure Asset where
  info : AssetInfo
  amount : Nat
  deriving DecidableEq, Repr

/-- `AssetInfoRaw` (`asset.rs:206-210`). -/
inductive AssetInfoRaw where
  | token (contractAddr : Bytes)
  | native (denom : Str)
  deriving DecidableEq, Repr

/-- `CreatePairRequirements` (`asset.rs:92-97`). -/
structure Requirements where
  whitelist : List Addr
  firstAssetMinimum : Nat
  secondAssetMinimum : Nat
  deriving DecidableEq, Repr

/-- `PairInfo` (`asset.rs:254-261`). -/
structure PairInfo where
  assetInfos : AssetInfo × AssetInfo
  contractAddr : Str
  liquidityToken : Str
  assetDecimals : Nat × Nat
  requirements : Requirements
  deriving DecidableEq, Repr

/-- `PairInfoRaw` (`asset.rs:263-270`); the content of `PAIR_INFO` (`halo-pair/src/state.rs`). -/
structure PairInfoRaw where
  assetInfos : AssetInfoRaw × AssetInfoRaw
  contractAddr : Bytes
  liquidityToken : Bytes
  assetDecimals : Nat × Nat
  requirements : Requirements
  deriving DecidableEq, Repr

namespace AssetInfo

/-- `Display for AssetInfo` (`asset.rs:107-114`). -/
def toStr : AssetInfo → Str
  | native denom => denom
  | token contractAddr => contractAddr

/-- `AssetInfo::to_raw` (`asset.rs:117-126`). -/
def toRaw (api : Api) : AssetInfo → R AssetInfoRaw
  | native denom => .ok (.native denom)
  | token contractAddr => do
    let c ← api.canonicalize contractAddr
    return .token c

/-- `AssetInfo::is_native_token` (`asset.rs:128-133`), `Asset::is_native_token` (`asset.rs:24-26`). -/
def isNative : AssetInfo → Bool
  | native _ => true
  | token _ => false

/-- `AssetInfo::equal` (`asset.rs:152-169`). -/
def equal : AssetInfo → AssetInfo → Bool
  | token a, token b => decide (a = b)
  | token _, native _ => false
  | native _, token _ => false
  | native a, native b => decide (a = b)

end AssetInfo

namespace AssetInfoRaw

/-- `AssetInfoRaw::to_normal` (`asset.rs:213-222`). -/
def toNormal (api : Api) : AssetInfoRaw → R AssetInfo
  | native denom => .ok (.native denom)
  | token contractAddr => do
    let h ← api.humanize contractAddr
    return .token h

/-- `AssetInfoRaw::as_bytes` (`asset.rs:224-229`). -/
def asBytes : AssetInfoRaw → Bytes
  | native denom => denom
  | token contractAddr => contractAddr

/-- `AssetInfoRaw::equal` (`asset.rs:231-250`). -/
def equal : AssetInfoRaw → AssetInfoRaw → Bool
  | token a, token b => decide (a = b)
  | token _, native _ => false
  | native _, token _ => false
  | native a, native b => decide (a = b)

end AssetInfoRaw

/-! ## Queries (`packages/haloswap/src/querier.rs`) -/

/-- `cw20::TokenInfoResponse`. -/
structure TokenInfoResp where
  name : Str
  symbol : Str
  decimals : Nat
  totalSupply : Nat
  deriving DecidableEq, Repr

/-- `SimulationResponse` (`pair.rs:71-76`) and `ReverseSimulationResponse` (`pair.rs:79-84`); for the
latter `amount` is `offer_amount`. -/
structure SimResp where
  amount : Nat
  spread : Nat
  commission : Nat
  deriving DecidableEq, Repr

/-- `PoolResponse` (`pair.rs:64-68`). -/
structure PoolResp where
  assets : Asset × Asset
  totalShare : Nat
  deriving DecidableEq, Repr

/-- The outside world as a contract sees it through `QuerierWrapper`: one field per function of
`querier.rs` (`query_all_balances`, lines 25-32, is used by no contract). -/
structure Querier where
  /-- `query_balance` (`querier.rs:12-23`) -/
  balance : Addr → Denom → R Nat
  /-- `query_token_balance` (`querier.rs:34-48`): token contract, account -/
  tokenBalance : Addr → Addr → R Nat
  /-- `query_token_info` (`querier.rs:50-60`) -/
  tokenInfo : Addr → R TokenInfoResp
  /-- `query_native_decimals` (`querier.rs:62-73`): factory, denom -/
  nativeDecimals : Addr → Denom → R Nat
  /-- `query_pair_info` (`querier.rs:75-86`): factory, assets -/
  pairInfo : Addr → AssetInfo × AssetInfo → R PairInfo
  /-- `simulate` (`querier.rs:88-99`): pair, offer asset -/
  simulate : Addr → Asset → R SimResp
  /-- `reverse_simulate` (`querier.rs:101-112`): pair, ask asset -/
  reverseSimulate : Addr → Asset → R SimResp
  /-- `query_pair_info_from_pair` (`querier.rs:114-124`) -/
  pairInfoFromPair : Addr → R PairInfo

/-- `AssetInfo::query_pool` (`asset.rs:134-150`). -/
def AssetInfo.queryPool (q : Querier) (api : Api) (poolAddr : Addr) : AssetInfo → R Nat
  | .token contractAddr => do
    let t ← api.validate contractAddr
    q.tokenBalance t poolAddr
  | .native denom => q.balance poolAddr denom

/-- `AssetInfo::query_decimals` (`asset.rs:171-181`). -/
def AssetInfo.queryDecimals (q : Querier) (accountAddr : Addr) : AssetInfo → R Nat
  | .native denom => q.nativeDecimals accountAddr denom
  | .token contractAddr => do
    let ti ← q.tokenInfo contractAddr
    return ti.decimals

namespace PairInfoRaw

/-- `PairInfoRaw::to_normal` (`asset.rs:273-284`). -/
def toNormal (api : Api) (p : PairInfoRaw) : R PairInfo := do
  let lt ← api.humanize p.liquidityToken
  let ca ← api.humanize p.contractAddr
  let a0 ← p.assetInfos.1.toNormal api
  let a1 ← p.assetInfos.2.toNormal api
  return { liquidityToken := lt, contractAddr := ca, assetInfos := (a0, a1),
           assetDecimals := p.assetDecimals, requirements := p.requirements }

/-- `PairInfoRaw::query_pools` (`asset.rs:286-305`). -/
def queryPools (q : Querier) (api : Api) (contractAddr : Addr) (p : PairInfoRaw) :
    R (Asset × Asset) := do
  let info0 ← p.assetInfos.1.toNormal api
  let info1 ← p.assetInfos.2.toNormal api
  let a0 ← info0.queryPool q api contractAddr
  let a1 ← info1.queryPool q api contractAddr
  return ({ amount := a0, info := info0 }, { amount := a1, info := info1 })

end PairInfoRaw

/-! ## Messages -/

/-- `SwapOperation::HaloSwap` (`router.rs:12-18`); the enum has a single variant. -/
structure SwapOp where
  offer : AssetInfo
  ask : AssetInfo
  deriving DecidableEq, Repr

/-- `SwapOperation::get_target_asset_info` (`router.rs:21-25`). -/
def SwapOp.target (op : SwapOp) : AssetInfo := op.ask

/-- The `msg` payload of a `Cw20ReceiveMsg`, after JSON decoding: the pair's hooks
(`pair.rs:39-48`), the router's hook (`router.rs:54-61`), or bytes no contract here can decode. -/
inductive HookMsg where
  | swap (beliefPrice maxSpread : Option Nat) (to : Option Str)
  | withdrawLiquidity
  | executeSwapOperations (ops : List SwapOp) (minimumReceive : Option Nat) (to : Option Str)
  | raw (b : Bytes)
  deriving DecidableEq, Repr

/-- `cw20::Expiration`. -/
inductive Expiration where
  | atHeight (h : Nat)
  | atTime (t : Nat)
  | never
  deriving DecidableEq, Repr

/-- Every execute message any of the four contracts can decode, plus `raw` for everything else.
The JSON tags are disjoint between contracts except `receive`, which the pair and the router share, so
one sum type is faithful; this is proved from the JSON texts as C83 (`Props/Codec.lean`). -/
inductive ExecMsg where
  -- `cw20_base::msg::ExecuteMsg` (halo-token)
  | transfer (recipient : Str) (amount : Nat)
  | burn (amount : Nat)
  | send (contract : Str) (amount : Nat) (msg : HookMsg)
  | increaseAllowance (spender : Str) (amount : Nat) (expires : Option Expiration)
  | decreaseAllowance (spender : Str) (amount : Nat) (expires : Option Expiration)
  | transferFrom (owner recipient : Str) (amount : Nat)
  | sendFrom (owner contract : Str) (amount : Nat) (msg : HookMsg)
  | burnFrom (owner : Str) (amount : Nat)
  | mint (recipient : Str) (amount : Nat)
  | updateMinter (newMinter : Option Str)
  | marketing
  -- pair (`pair.rs:19-36`) and router (`router.rs:28-52`)
  | receive (sender : Str) (amount : Nat) (msg : HookMsg)
  | provideLiquidity (assets : Asset × Asset) (slippageTolerance : Option Nat) (receiver : Option Str)
  | executeSwapOperations (ops : List SwapOp) (minimumReceive : Option Nat) (to : Option Str)
  | executeSwapOperation (op : SwapOp) (to : Option Str)
  | assertMinimumReceive (assetInfo : AssetInfo) (prevBalance minimumReceive : Nat) (receiver : Str)
  -- factory (`factory.rs:12-35`)
  | updateConfig (owner : Option Str) (tokenCodeId pairCodeId : Option Nat)
  | createPair (assetInfos : AssetInfo × AssetInfo) (requirements : Requirements)
  | addNativeTokenDecimals (denom : Str) (decimals : Nat)
  | migratePair (contract : Str) (codeId : Option Nat)
  -- `PairHookMsg::Swap` sent directly as an execute message (`operations.rs:76-87`)
  | swapDirect (beliefPrice maxSpread : Option Nat) (to : Option Str)
  | raw (b : Bytes)
  deriving DecidableEq, Repr

/-- `cw20::MinterResponse`. -/
structure MinterResp where
  minter : Str
  cap : Option Nat
  deriving DecidableEq, Repr

/-- halo-token `InstantiateMsg` (`token.rs:7-14`). -/
structure TokenInst where
  name : Str
  symbol : Str
  decimals : Nat
  initialBalances : List (Str × Nat)
  mint : Option MinterResp
  deriving DecidableEq, Repr

/-- Instantiate messages of the four contracts (`token.rs:7-14`, `pair.rs:8-17`, `factory.rs:5-10`,
`router.rs:7-10`). -/
inductive InstMsg where
  | token (m : TokenInst)
  | pair (assetInfos : AssetInfo × AssetInfo) (tokenCodeId : Nat) (assetDecimals : Nat × Nat)
      (requirements : Requirements)
  | factory (pairCodeId tokenCodeId : Nat)
  | router (haloFactory : Str)
  | raw (b : Bytes)
  deriving DecidableEq, Repr

/-- `cosmwasm_std::CosmosMsg`, the variants the contracts emit (`BankMsg::Send`, `WasmMsg::Execute`,
`WasmMsg::Instantiate`, `WasmMsg::Migrate` with an empty migrate message), and `WasmMsg::UpdateAdmin`
(`some`) / `WasmMsg::ClearAdmin` (`none`), which only users and third-party contracts send. -/
inductive CosmosMsg where
  | bankSend (to : Str) (coins : List Coin)
  | exec (contract : Str) (msg : ExecMsg) (funds : List Coin)
  | inst (admin : Option Str) (codeId : Nat) (msg : InstMsg) (funds : List Coin)
  | migrate (contract : Str) (codeId : Nat)
  | updateAdmin (contract : Str) (admin : Option Str)
  deriving DecidableEq, Repr

/-- `SubMsg`: `replyId = none` is `ReplyOn::Never` (`add_message`), `some id` is `ReplyOn::Success`. -/
structure SubMsg where
  msg : CosmosMsg
  replyId : Option Nat
  deriving DecidableEq, Repr

/-- Response attributes, as typed events: the pair's (`halo-pair/src/contract.rs:204`, `332-338`, `376-387`, `465-476`) and
the factory's (`halo-factory/src/contract.rs:101`, `153-156`, `199-203`, `258-261`); the router adds none. Simplification:
values are kept typed; `Text.lean` prints them. The attributes `cw20-base` adds are in `TokenLog.lean`. -/
inductive Event where
  | provideLiquidity (sender receiver : Str) (assets : Asset × Asset) (share : Nat)
  | withdrawLiquidity (sender : Str) (withdrawnShare : Nat) (refunds : Asset × Asset)
  | swap (sender receiver : Str) (offerAsset askAsset : AssetInfo)
      (offerAmount returnAmount spreadAmount commissionAmount : Nat)
  | liquidityToken (addr : Str)
  | updateConfig
  | createPair (assets : AssetInfo × AssetInfo)
  | addNativeToken (denom : Str) (decimals : Nat)
  | pairCreated (pair liquidityToken : Str)
  deriving DecidableEq, Repr

/-- `cosmwasm_std::Response`. -/
structure Response where
  messages : List SubMsg := []
  events : List Event := []
  deriving DecidableEq, Repr

/-- `Response::add_message(s)`: messages without a reply. -/
def plain (m : CosmosMsg) : SubMsg := ⟨m, none⟩

/-- `Asset::into_msg` (`asset.rs:28-48`); `into_submsg` (`asset.rs:50-52`) is used by no contract. -/
def Asset.intoMsg (a : Asset) (recipient : Addr) : CosmosMsg :=
  match a.info with
  | .token contractAddr => .exec contractAddr (.transfer recipient a.amount) []
  | .native denom => .bankSend recipient [{ amount := a.amount, denom := denom }]

/-- `Asset::assert_sent_native_token_balance` (`asset.rs:54-75`). Error 10:
"Native token balance mismatch between the argument and the transferred". -/
def Asset.assertSent (a : Asset) (funds : List Coin) : R Unit :=
  match a.info with
  | .native denom =>
    match funds.find? (fun x => decide (x.denom = denom)) with
    | some coin => require (a.amount = coin.amount) (.generic 10)
    | none => require (a.amount = 0) (.generic 10)
  | .token _ => .ok ()

/-- `optional_addr_validate` (`halo-router/src/contract.rs:90-98`), same code inline in
`halo-pair/src/contract.rs:155-159`. -/
def optValidate (api : Api) : Option Str → R (Option Addr)
  | none => .ok none
  | some s => do
    let a ← api.validate s
    return some a

/-! ## Well-formed messages

JSON decoding rejects numbers outside the declared integer type; since the model uses `Nat`, the host
checks the ranges when a message is delivered (see `Chain`). -/

/-- An optional `Uint128`/`Decimal` field is in range. -/
def optLt (b : Nat) : Option Nat → Bool
  | none => true
  | some n => decide (n < b)

/-- Ranges of `Cw20HookMsg` payloads. -/
def HookMsg.inRange : HookMsg → Bool
  | .swap b m _ => optLt B128 b && optLt B128 m
  | .withdrawLiquidity => true
  | .executeSwapOperations _ m _ => optLt B128 m
  | .raw _ => true

/-- Ranges of `CreatePairRequirements`. -/
def Requirements.inRange (r : Requirements) : Bool :=
  decide (r.firstAssetMinimum < B128) && decide (r.secondAssetMinimum < B128)

/-- Ranges of `cw20::Expiration`: heights and times are `u64`. -/
def Expiration.inRange : Expiration → Bool
  | .atHeight h => decide (h < B64)
  | .atTime t => decide (t < B64)
  | .never => true

/-- Ranges of execute messages (`Uint128` amounts, `Decimal`s, `u64` code ids, heights and times, `u8` decimals). -/
def ExecMsg.inRange : ExecMsg → Bool
  | .transfer _ a => decide (a < B128)
  | .burn a => decide (a < B128)
  | .send _ a _ => decide (a < B128)
  | .increaseAllowance _ a e => decide (a < B128) && e.all Expiration.inRange
  | .decreaseAllowance _ a e => decide (a < B128) && e.all Expiration.inRange
  | .transferFrom _ _ a => decide (a < B128)
  | .sendFrom _ _ a _ => decide (a < B128)
  | .burnFrom _ a => decide (a < B128)
  | .mint _ a => decide (a < B128)
  | .updateMinter _ => true
  | .marketing => true
  | .receive _ a m => decide (a < B128) && m.inRange
  | .provideLiquidity as s _ =>
    decide (as.1.amount < B128) && decide (as.2.amount < B128) && optLt B128 s
  | .executeSwapOperations _ m _ => optLt B128 m
  | .executeSwapOperation _ _ => true
  | .assertMinimumReceive _ p m _ => decide (p < B128) && decide (m < B128)
  | .updateConfig _ t p => optLt B64 t && optLt B64 p
  | .createPair _ r => r.inRange
  | .addNativeTokenDecimals _ d => decide (d < 256)
  | .migratePair _ c => optLt B64 c
  | .swapDirect _ _ _ => true
  | .raw _ => true

/-- Ranges of instantiate messages. -/
def InstMsg.inRange : InstMsg → Bool
  | .token m => decide (m.decimals < 256) && m.initialBalances.all (fun e => decide (e.2 < B128)) &&
      (match m.mint with | none => true | some r => optLt B128 r.cap)
  | .pair _ t d r => decide (t < B64) && decide (d.1 < 256) && decide (d.2 < 256) && r.inRange
  | .factory p t => decide (p < B64) && decide (t < B64)
  | .router _ => true
  | .raw _ => true

end Halo
