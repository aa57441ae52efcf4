import Verif.Chain
import Verif.Json
/-! # The messages as JSON

How the message types are written and read. All of them are `#[cw_serde]` types (cosmwasm-schema 1.1.8), which means: an enum
value is an object with one member, named after the variant in snake case; a struct (or the fields of a variant) is an object
with one member per field, in the order declared when written, in any order when read; unknown and repeated fields are refused;
a missing or `null` optional field is `None`, which is written as `null`. `Uint128` and `Decimal` are strings, `u8` and `u64`
are numbers, `Binary` is a base64 string, arrays `[T; 2]` have exactly two elements.

Types: `packages/haloswap/src/asset.rs:11-15, 92-105`, `pair.rs:8-48`, `factory.rs:5-35`, `router.rs:7-61`, `token.rs:7-14`;
from cw20 1.0.0 `Cw20ExecuteMsg`, `Cw20ReceiveMsg`, `Cw20Coin`, `MinterResponse`, `Logo`, `EmbeddedLogo`, from cw-utils 1.0.1
`Expiration`. -/

namespace Halo

/-! ## Reading the parts -/

/-- An enum value: an object with exactly one member, whose name selects the variant. -/
def tagged {α : Type} (cases : List (Str × (Json → Option α))) : Json → Option α
  | .obj (.cons k b .nil) => (cases.lookup k).bind fun f => f b
  | _ => none

/-- The members of a struct: every one a field of the type (`deny_unknown_fields`), none twice. -/
def structOf (names : List Str) : Json → Option (List (Str × Json))
  | .obj l => if (l.toList.map Prod.fst).all names.contains ∧ (l.toList.map Prod.fst).Nodup then some l.toList else none
  | _ => none

/-- A field that must be present. -/
def reqd {α : Type} (f : Json → Option α) (k : Str) (m : List (Str × Json)) : Option α := (m.lookup k).bind f

/-- An optional value. -/
def nullable {α : Type} (f : Json → Option α) : Json → Option (Option α)
  | .null => some none
  | j => (f j).map some

/-- An optional field. -/
def optl {α : Type} (f : Json → Option α) (k : Str) (m : List (Str × Json)) : Option (Option α) :=
  match m.lookup k with
  | none => some none
  | some j => nullable f j

/-- `String`, and `Addr`, which is read without validation. -/
def asStr : Json → Option Str
  | .str s => some s
  | _ => none

/-- `Uint128`. -/
def asU128 (j : Json) : Option Nat := (asStr j).bind Uint128.fromDecStr

/-- `Decimal`. -/
def asDecimal (j : Json) : Option Nat := (asStr j).bind fun s => (Decimal.fromStr s).toOption

/-- A number below a bound (`u8`, `u64`). -/
def asNum (bound : Nat) : Json → Option Nat
  | .num n => if n < bound then some n else none
  | _ => none

/-- `Timestamp`, a newtype of `Uint64`: a string. -/
def asTime (j : Json) : Option Nat := (asU128 j).bind fun n => if n < B64 then some n else none

/-- `Binary`. -/
def asBinary (j : Json) : Option Bytes := (asStr j).bind fromBase64

/-- Every element, or nothing. -/
def asElems {α : Type} (f : Json → Option α) : Items → Option (List α)
  | .nil => some []
  | .cons j t => (f j).bind fun x => (asElems f t).bind fun l => some (x :: l)

/-- `Vec<T>`. -/
def asVec {α : Type} (f : Json → Option α) : Json → Option (List α)
  | .arr l => asElems f l
  | _ => none

/-- `[T; 2]`. -/
def asTwo {α : Type} (f : Json → Option α) : Json → Option (α × α)
  | .arr (.cons a (.cons b .nil)) => (f a).bind fun x => (f b).bind fun y => some (x, y)
  | _ => none

/-- `AssetInfo` (`asset.rs:101-105`). -/
def asInfo : Json → Option AssetInfo :=
  tagged [
    (asc "token", fun b => (structOf [asc "contract_addr"] b).bind fun m =>
      (reqd asStr (asc "contract_addr") m).map .token),
    (asc "native_token", fun b => (structOf [asc "denom"] b).bind fun m => (reqd asStr (asc "denom") m).map .native)]

/-- `Asset` (`asset.rs:11-15`). -/
def asAsset (j : Json) : Option Asset := do
  let m ← structOf [asc "info", asc "amount"] j
  let info ← reqd asInfo (asc "info") m
  let amount ← reqd asU128 (asc "amount") m
  return { info, amount }

/-- `CreatePairRequirements` (`asset.rs:92-97`). -/
def asRequirements (j : Json) : Option Requirements := do
  let m ← structOf [asc "whitelist", asc "first_asset_minimum", asc "second_asset_minimum"] j
  let whitelist ← reqd (asVec asStr) (asc "whitelist") m
  let firstAssetMinimum ← reqd asU128 (asc "first_asset_minimum") m
  let secondAssetMinimum ← reqd asU128 (asc "second_asset_minimum") m
  return { whitelist, firstAssetMinimum, secondAssetMinimum }

/-- `SwapOperation` (`router.rs:12-18`). -/
def asOp : Json → Option SwapOp :=
  tagged [
    (asc "halo_swap", fun b => do
      let m ← structOf [asc "offer_asset_info", asc "ask_asset_info"] b
      let offer ← reqd asInfo (asc "offer_asset_info") m
      let ask ← reqd asInfo (asc "ask_asset_info") m
      return { offer, ask })]

/-- `Expiration` (cw-utils). -/
def asExpiration : Json → Option Expiration :=
  tagged [
    (asc "at_height", fun b => (asNum B64 b).map .atHeight),
    (asc "at_time", fun b => (asTime b).map .atTime),
    (asc "never", fun b => (structOf [] b).map fun _ => .never)]

/-- `EmbeddedLogo` (cw20); its content is not kept. -/
def asEmbedded : Json → Option Unit :=
  tagged [(asc "svg", fun b => (asBinary b).map fun _ => ()), (asc "png", fun b => (asBinary b).map fun _ => ())]

/-- `Logo` (cw20); its content is not kept. -/
def asLogo : Json → Option Unit :=
  tagged [(asc "url", fun b => (asStr b).map fun _ => ()), (asc "embedded", asEmbedded)]

/-- `MinterResponse` (cw20). -/
def asMinter (j : Json) : Option MinterResp := do
  let m ← structOf [asc "minter", asc "cap"] j
  let minter ← reqd asStr (asc "minter") m
  let cap ← optl asU128 (asc "cap") m
  return { minter, cap }

/-- `Cw20Coin` (cw20). -/
def asCw20Coin (j : Json) : Option (Str × Nat) := do
  let m ← structOf [asc "address", asc "amount"] j
  let address ← reqd asStr (asc "address") m
  let amount ← reqd asU128 (asc "amount") m
  return (address, amount)

/-! ## Payloads -/

/-- Fields of the pair's `Cw20HookMsg::Swap` (`pair.rs:43-47`). -/
def swapFields (b : Json) : Option (Option Nat × Option Nat × Option Str) := do
  let m ← structOf [asc "belief_price", asc "max_spread", asc "to"] b
  let beliefPrice ← optl asDecimal (asc "belief_price") m
  let maxSpread ← optl asDecimal (asc "max_spread") m
  let to ← optl asStr (asc "to") m
  return (beliefPrice, maxSpread, to)

/-- Fields of `ExecuteSwapOperations` (`router.rs:31-35` and, the same, `55-60`). -/
def operationsFields (b : Json) : Option (List SwapOp × Option Nat × Option Str) := do
  let m ← structOf [asc "operations", asc "minimum_receive", asc "to"] b
  let operations ← reqd (asVec asOp) (asc "operations") m
  let minimumReceive ← optl asU128 (asc "minimum_receive") m
  let to ← optl asStr (asc "to") m
  return (operations, minimumReceive, to)

/-- The pair's `Cw20HookMsg` (`pair.rs:39-48`). -/
def asPairHook : Json → Option HookMsg :=
  tagged [
    (asc "swap", fun b => (swapFields b).map fun p => .swap p.1 p.2.1 p.2.2),
    (asc "withdraw_liquidity", fun b => (structOf [] b).map fun _ => .withdrawLiquidity)]

/-- The router's `Cw20HookMsg` (`router.rs:54-61`). -/
def asRouterHook : Json → Option HookMsg :=
  tagged [(asc "execute_swap_operations", fun b => (operationsFields b).map fun p => .executeSwapOperations p.1 p.2.1 p.2.2)]

/-- `from_binary(&cw20_msg.msg)` in the pair (`halo-pair/src/contract.rs:134`). -/
def readPairHook (b : Bytes) : Option HookMsg := (Json.parse b).bind asPairHook

/-- `from_binary(&cw20_msg.msg)` in the router (`halo-router/src/contract.rs:107`). -/
def readRouterHook (b : Bytes) : Option HookMsg := (Json.parse b).bind asRouterHook

/-! ## Execute messages, as each contract reads them -/

/-- An amount of tokens named `amount`. -/
def amountOf (m : List (Str × Json)) : Option Nat := reqd asU128 (asc "amount") m

/-- `Cw20ReceiveMsg` (cw20); the payload is interpreted by `pay`. -/
def asReceive (pay : Bytes → HookMsg) (b : Json) : Option ExecMsg := do
  let m ← structOf [asc "sender", asc "amount", asc "msg"] b
  let sender ← reqd asStr (asc "sender") m
  let amount ← amountOf m
  let msg ← reqd asBinary (asc "msg") m
  return .receive sender amount (pay msg)

/-- `Cw20ExecuteMsg::Send`. -/
def asSend (pay : Bytes → HookMsg) (b : Json) : Option ExecMsg := do
  let m ← structOf [asc "contract", asc "amount", asc "msg"] b
  let contract ← reqd asStr (asc "contract") m
  let amount ← amountOf m
  let msg ← reqd asBinary (asc "msg") m
  return .send contract amount (pay msg)

/-- `Cw20ExecuteMsg::SendFrom`. -/
def asSendFrom (pay : Bytes → HookMsg) (b : Json) : Option ExecMsg := do
  let m ← structOf [asc "owner", asc "contract", asc "amount", asc "msg"] b
  let owner ← reqd asStr (asc "owner") m
  let contract ← reqd asStr (asc "contract") m
  let amount ← amountOf m
  let msg ← reqd asBinary (asc "msg") m
  return .sendFrom owner contract amount (pay msg)

/-- `Cw20ExecuteMsg::IncreaseAllowance` and `DecreaseAllowance`. -/
def asAllowance (f : Str → Nat → Option Expiration → ExecMsg) (b : Json) : Option ExecMsg := do
  let m ← structOf [asc "spender", asc "amount", asc "expires"] b
  let spender ← reqd asStr (asc "spender") m
  let amount ← amountOf m
  let expires ← optl asExpiration (asc "expires") m
  return f spender amount expires

/-- `Cw20ExecuteMsg::Transfer` and `Mint`. -/
def asTransfer (f : Str → Nat → ExecMsg) (b : Json) : Option ExecMsg := do
  let m ← structOf [asc "recipient", asc "amount"] b
  let recipient ← reqd asStr (asc "recipient") m
  let amount ← amountOf m
  return f recipient amount

/-- `Cw20ExecuteMsg::Burn`. -/
def asBurn (b : Json) : Option ExecMsg := do
  let m ← structOf [asc "amount"] b
  let amount ← amountOf m
  return .burn amount

/-- `Cw20ExecuteMsg::TransferFrom`. -/
def asTransferFrom (b : Json) : Option ExecMsg := do
  let m ← structOf [asc "owner", asc "recipient", asc "amount"] b
  let owner ← reqd asStr (asc "owner") m
  let recipient ← reqd asStr (asc "recipient") m
  let amount ← amountOf m
  return .transferFrom owner recipient amount

/-- `Cw20ExecuteMsg::BurnFrom`. -/
def asBurnFrom (b : Json) : Option ExecMsg := do
  let m ← structOf [asc "owner", asc "amount"] b
  let owner ← reqd asStr (asc "owner") m
  let amount ← amountOf m
  return .burnFrom owner amount

/-- `Cw20ExecuteMsg::UpdateMinter`. -/
def asUpdateMinter (b : Json) : Option ExecMsg := do
  let m ← structOf [asc "new_minter"] b
  let newMinter ← optl asStr (asc "new_minter") m
  return .updateMinter newMinter

/-- `Cw20ExecuteMsg::UpdateMarketing`; the texts are not kept. -/
def asMarketing (b : Json) : Option ExecMsg := do
  let m ← structOf [asc "project", asc "description", asc "marketing"] b
  let _ ← optl asStr (asc "project") m
  let _ ← optl asStr (asc "description") m
  let _ ← optl asStr (asc "marketing") m
  return .marketing

/-- `Cw20ExecuteMsg` (cw20 1.0.0; `cw20_base::msg::ExecuteMsg` is the same type), read by halo-token
(`halo-token/src/contract.rs:62-70`). -/
def tokenCases (pay : Bytes → HookMsg) : List (Str × (Json → Option ExecMsg)) := [
  (asc "transfer", asTransfer .transfer),
  (asc "burn", asBurn),
  (asc "send", asSend pay),
  (asc "increase_allowance", asAllowance .increaseAllowance),
  (asc "decrease_allowance", asAllowance .decreaseAllowance),
  (asc "transfer_from", asTransferFrom),
  (asc "send_from", asSendFrom pay),
  (asc "burn_from", asBurnFrom),
  (asc "mint", asTransfer .mint),
  (asc "update_minter", asUpdateMinter),
  (asc "update_marketing", asMarketing),
  (asc "upload_logo", fun b => (asLogo b).map fun _ => .marketing)]

/-- Fields of `ProvideLiquidity` (`pair.rs:23-27`). -/
def asProvide (b : Json) : Option ExecMsg := do
  let m ← structOf [asc "assets", asc "slippage_tolerance", asc "receiver"] b
  let assets ← reqd (asTwo asAsset) (asc "assets") m
  let slippageTolerance ← optl asDecimal (asc "slippage_tolerance") m
  let receiver ← optl asStr (asc "receiver") m
  return .provideLiquidity assets slippageTolerance receiver

/-- The pair's `ExecuteMsg` (`pair.rs:19-36`). -/
def pairCases (pay : Bytes → HookMsg) : List (Str × (Json → Option ExecMsg)) := [
  (asc "receive", asReceive pay),
  (asc "provide_liquidity", asProvide)]

/-- Fields of `ExecuteSwapOperation` (`router.rs:39-42`). -/
def asOperation (b : Json) : Option ExecMsg := do
  let m ← structOf [asc "operation", asc "to"] b
  let operation ← reqd asOp (asc "operation") m
  let to ← optl asStr (asc "to") m
  return .executeSwapOperation operation to

/-- Fields of `AssertMinimumReceive` (`router.rs:45-50`). -/
def asAssertMinimum (b : Json) : Option ExecMsg := do
  let m ← structOf [asc "asset_info", asc "prev_balance", asc "minimum_receive", asc "receiver"] b
  let assetInfo ← reqd asInfo (asc "asset_info") m
  let prevBalance ← reqd asU128 (asc "prev_balance") m
  let minimumReceive ← reqd asU128 (asc "minimum_receive") m
  let receiver ← reqd asStr (asc "receiver") m
  return .assertMinimumReceive assetInfo prevBalance minimumReceive receiver

/-- The router's `ExecuteMsg` (`router.rs:28-52`). -/
def routerCases (pay : Bytes → HookMsg) : List (Str × (Json → Option ExecMsg)) := [
  (asc "receive", asReceive pay),
  (asc "execute_swap_operations", fun b => (operationsFields b).map fun p => .executeSwapOperations p.1 p.2.1 p.2.2),
  (asc "execute_swap_operation", asOperation),
  (asc "assert_minimum_receive", asAssertMinimum)]

/-- Fields of `UpdateConfig` (`factory.rs:15-19`). -/
def asUpdateConfig (b : Json) : Option ExecMsg := do
  let m ← structOf [asc "owner", asc "token_code_id", asc "pair_code_id"] b
  let owner ← optl asStr (asc "owner") m
  let tokenCodeId ← optl (asNum B64) (asc "token_code_id") m
  let pairCodeId ← optl (asNum B64) (asc "pair_code_id") m
  return .updateConfig owner tokenCodeId pairCodeId

/-- Fields of `CreatePair` (`factory.rs:21-26`). -/
def asCreatePair (b : Json) : Option ExecMsg := do
  let m ← structOf [asc "asset_infos", asc "requirements"] b
  let assetInfos ← reqd (asTwo asInfo) (asc "asset_infos") m
  let requirements ← reqd asRequirements (asc "requirements") m
  return .createPair assetInfos requirements

/-- Fields of `AddNativeTokenDecimals` (`factory.rs:27-30`). -/
def asAddNative (b : Json) : Option ExecMsg := do
  let m ← structOf [asc "denom", asc "decimals"] b
  let denom ← reqd asStr (asc "denom") m
  let decimals ← reqd (asNum 256) (asc "decimals") m
  return .addNativeTokenDecimals denom decimals

/-- Fields of `MigratePair` (`factory.rs:31-34`). -/
def asMigratePair (b : Json) : Option ExecMsg := do
  let m ← structOf [asc "contract", asc "code_id"] b
  let contract ← reqd asStr (asc "contract") m
  let codeId ← optl (asNum B64) (asc "code_id") m
  return .migratePair contract codeId

/-- The factory's `ExecuteMsg` (`factory.rs:12-35`). -/
def factoryCases : List (Str × (Json → Option ExecMsg)) := [
  (asc "update_config", asUpdateConfig),
  (asc "create_pair", asCreatePair),
  (asc "add_native_token_decimals", asAddNative),
  (asc "migrate_pair", asMigratePair)]

/-- A payload as one contract sees it: what it can read, the bytes otherwise. -/
def payloadBy (read : Bytes → Option HookMsg) (b : Bytes) : HookMsg := (read b).getD (.raw b)

/-- A payload as any of the contracts sees it. -/
def classifyHook (b : Bytes) : HookMsg := payloadBy (fun b => (readPairHook b).or (readRouterHook b)) b

/-- The execute message a contract reads (`from_slice` in the entry point generated by `#[entry_point]`); `none` is a parse
error. The token keeps a payload as it is, so it does not matter how it is shown here. -/
def readExec (k : Kind) (b : Bytes) : Option ExecMsg :=
  (Json.parse b).bind (match k with
    | .token => tagged (tokenCases classifyHook)
    | .pair => tagged (pairCases (payloadBy readPairHook))
    | .factory => tagged factoryCases
    | .router => tagged (routerCases (payloadBy readRouterHook))
    | .other => fun _ => none)

/-! ## Instantiate messages -/

/-- halo-token `InstantiateMsg` (`token.rs:7-14`). -/
def asTokenInst (j : Json) : Option InstMsg := do
  let m ← structOf [asc "name", asc "symbol", asc "decimals", asc "initial_balances", asc "mint"] j
  let name ← reqd asStr (asc "name") m
  let symbol ← reqd asStr (asc "symbol") m
  let decimals ← reqd (asNum 256) (asc "decimals") m
  let initialBalances ← reqd (asVec asCw20Coin) (asc "initial_balances") m
  let mint ← optl asMinter (asc "mint") m
  return .token { name, symbol, decimals, initialBalances, mint }

/-- The pair's `InstantiateMsg` (`pair.rs:8-17`). -/
def asPairInst (j : Json) : Option InstMsg := do
  let m ← structOf [asc "asset_infos", asc "token_code_id", asc "asset_decimals", asc "requirements"] j
  let assetInfos ← reqd (asTwo asInfo) (asc "asset_infos") m
  let tokenCodeId ← reqd (asNum B64) (asc "token_code_id") m
  let assetDecimals ← reqd (asTwo (asNum 256)) (asc "asset_decimals") m
  let requirements ← reqd asRequirements (asc "requirements") m
  return .pair assetInfos tokenCodeId assetDecimals requirements

/-- The factory's `InstantiateMsg` (`factory.rs:5-10`). -/
def asFactoryInst (j : Json) : Option InstMsg := do
  let m ← structOf [asc "pair_code_id", asc "token_code_id"] j
  let pairCodeId ← reqd (asNum B64) (asc "pair_code_id") m
  let tokenCodeId ← reqd (asNum B64) (asc "token_code_id") m
  return .factory pairCodeId tokenCodeId

/-- The router's `InstantiateMsg` (`router.rs:7-10`). -/
def asRouterInst (j : Json) : Option InstMsg := do
  let m ← structOf [asc "halo_factory"] j
  let haloFactory ← reqd asStr (asc "halo_factory") m
  return .router haloFactory

/-- The instantiate message a contract reads. -/
def readInst (k : Kind) (b : Bytes) : Option InstMsg :=
  (Json.parse b).bind (match k with
    | .token => asTokenInst
    | .pair => asPairInst
    | .factory => asFactoryInst
    | .router => asRouterInst
    | .other => fun _ => none)

/-! ## Writing -/

/-- An object with the given members. -/
def obj (l : List (Str × Json)) : Json := .obj (.ofList l)

/-- An enum value. -/
def variant (k : Str) (b : Json) : Json := obj [(k, b)]

/-- `Option<T>`. -/
def optJ {α : Type} (f : α → Json) : Option α → Json
  | none => .null
  | some x => f x

/-- `Uint128`. -/
def u128J (n : Nat) : Json := .str (natToDec n)

/-- `Decimal`. -/
def decimalJ (d : Nat) : Json := .str (Decimal.toStr d)

/-- `Vec<T>`. -/
def vecJ {α : Type} (f : α → Json) (l : List α) : Json := .arr (.ofList (l.map f))

/-- `[T; 2]`. -/
def twoJ {α : Type} (f : α → Json) (p : α × α) : Json := .arr (.ofList [f p.1, f p.2])

/-- `AssetInfo`. -/
def infoJ : AssetInfo → Json
  | .token a => variant (asc "token") (obj [(asc "contract_addr", .str a)])
  | .native d => variant (asc "native_token") (obj [(asc "denom", .str d)])

/-- `Asset`. -/
def assetJ (a : Asset) : Json := obj [(asc "info", infoJ a.info), (asc "amount", u128J a.amount)]

/-- `CreatePairRequirements`. -/
def requirementsJ (r : Requirements) : Json :=
  obj [(asc "whitelist", vecJ .str r.whitelist), (asc "first_asset_minimum", u128J r.firstAssetMinimum),
    (asc "second_asset_minimum", u128J r.secondAssetMinimum)]

/-- `SwapOperation`. -/
def opJ (o : SwapOp) : Json :=
  variant (asc "halo_swap") (obj [(asc "offer_asset_info", infoJ o.offer), (asc "ask_asset_info", infoJ o.ask)])

/-- `Expiration`. -/
def expirationJ : Expiration → Json
  | .atHeight h => variant (asc "at_height") (.num h)
  | .atTime t => variant (asc "at_time") (u128J t)
  | .never => variant (asc "never") (obj [])

/-- `MinterResponse`. -/
def minterJ (m : MinterResp) : Json := obj [(asc "minter", .str m.minter), (asc "cap", optJ u128J m.cap)]

/-- `Cw20Coin`. -/
def cw20CoinJ (e : Str × Nat) : Json := obj [(asc "address", .str e.1), (asc "amount", u128J e.2)]

/-- The pair's `Cw20HookMsg::Swap`. -/
def swapJ (beliefPrice maxSpread : Option Nat) (to : Option Str) : Json :=
  variant (asc "swap") (obj [(asc "belief_price", optJ decimalJ beliefPrice), (asc "max_spread", optJ decimalJ maxSpread),
    (asc "to", optJ .str to)])

/-- `ExecuteSwapOperations`, as an execute message of the router and as a payload for it. -/
def operationsJ (ops : List SwapOp) (minimumReceive : Option Nat) (to : Option Str) : Json :=
  variant (asc "execute_swap_operations") (obj [(asc "operations", vecJ opJ ops),
    (asc "minimum_receive", optJ u128J minimumReceive), (asc "to", optJ .str to)])

/-- Payloads as written by `to_binary`. -/
def writeHook : HookMsg → Bytes
  | .swap b m t => (swapJ b m t).print
  | .withdrawLiquidity => (variant (asc "withdraw_liquidity") (obj [])).print
  | .executeSwapOperations ops m t => (operationsJ ops m t).print
  | .raw b => b

/-- `Binary`. -/
def payloadJ (h : HookMsg) : Json := .str (toBase64 (writeHook h))

/-- Execute messages; `raw` stands for bytes that are not the text of a message of the four contracts and has no value. -/
def execJ : ExecMsg → Json
  | .transfer r a => variant (asc "transfer") (obj [(asc "recipient", .str r), (asc "amount", u128J a)])
  | .burn a => variant (asc "burn") (obj [(asc "amount", u128J a)])
  | .send t a h => variant (asc "send") (obj [(asc "contract", .str t), (asc "amount", u128J a), (asc "msg", payloadJ h)])
  | .increaseAllowance s a e =>
    variant (asc "increase_allowance") (obj [(asc "spender", .str s), (asc "amount", u128J a), (asc "expires", optJ expirationJ e)])
  | .decreaseAllowance s a e =>
    variant (asc "decrease_allowance") (obj [(asc "spender", .str s), (asc "amount", u128J a), (asc "expires", optJ expirationJ e)])
  | .transferFrom o r a =>
    variant (asc "transfer_from") (obj [(asc "owner", .str o), (asc "recipient", .str r), (asc "amount", u128J a)])
  | .sendFrom o t a h =>
    variant (asc "send_from") (obj [(asc "owner", .str o), (asc "contract", .str t), (asc "amount", u128J a), (asc "msg", payloadJ h)])
  | .burnFrom o a => variant (asc "burn_from") (obj [(asc "owner", .str o), (asc "amount", u128J a)])
  | .mint r a => variant (asc "mint") (obj [(asc "recipient", .str r), (asc "amount", u128J a)])
  | .updateMinter m => variant (asc "update_minter") (obj [(asc "new_minter", optJ .str m)])
  | .marketing =>
    variant (asc "update_marketing") (obj [(asc "project", .null), (asc "description", .null), (asc "marketing", .null)])
  | .receive s a h => variant (asc "receive") (obj [(asc "sender", .str s), (asc "amount", u128J a), (asc "msg", payloadJ h)])
  | .provideLiquidity as t r =>
    variant (asc "provide_liquidity") (obj [(asc "assets", twoJ assetJ as), (asc "slippage_tolerance", optJ decimalJ t),
      (asc "receiver", optJ .str r)])
  | .executeSwapOperations ops m t => operationsJ ops m t
  | .executeSwapOperation o t => variant (asc "execute_swap_operation") (obj [(asc "operation", opJ o), (asc "to", optJ .str t)])
  | .assertMinimumReceive i p m r =>
    variant (asc "assert_minimum_receive") (obj [(asc "asset_info", infoJ i), (asc "prev_balance", u128J p),
      (asc "minimum_receive", u128J m), (asc "receiver", .str r)])
  | .updateConfig o t p =>
    variant (asc "update_config") (obj [(asc "owner", optJ .str o), (asc "token_code_id", optJ .num t),
      (asc "pair_code_id", optJ .num p)])
  | .createPair is r => variant (asc "create_pair") (obj [(asc "asset_infos", twoJ infoJ is), (asc "requirements", requirementsJ r)])
  | .addNativeTokenDecimals d n => variant (asc "add_native_token_decimals") (obj [(asc "denom", .str d), (asc "decimals", .num n)])
  | .migratePair a k => variant (asc "migrate_pair") (obj [(asc "contract", .str a), (asc "code_id", optJ .num k)])
  | .swapDirect b m t => swapJ b m t
  | .raw _ => .null

/-- Execute messages as written by `to_binary`. -/
def writeExec : ExecMsg → Bytes
  | .raw b => b
  | m => (execJ m).print

/-- Instantiate messages as written by `to_binary`. -/
def writeInst : InstMsg → Bytes
  | .token m => (obj [(asc "name", .str m.name), (asc "symbol", .str m.symbol), (asc "decimals", .num m.decimals),
      (asc "initial_balances", vecJ cw20CoinJ m.initialBalances), (asc "mint", optJ minterJ m.mint)]).print
  | .pair is t d r => (obj [(asc "asset_infos", twoJ infoJ is), (asc "token_code_id", .num t),
      (asc "asset_decimals", twoJ .num d), (asc "requirements", requirementsJ r)]).print
  | .factory p t => (obj [(asc "pair_code_id", .num p), (asc "token_code_id", .num t)]).print
  | .router f => (obj [(asc "halo_factory", .str f)]).print
  | .raw b => b

/-! ## Delivery of bytes -/

/-- The message as the model has it, whoever is to read it: what one of the four contracts reads, the pair's `Swap` payload
sent as a message of its own, or else the bytes. -/
def classify (b : Bytes) : ExecMsg :=
  ((Json.parse b).bind fun j =>
    (tagged (tokenCases classifyHook ++ (pairCases classifyHook ++ (routerCases classifyHook ++ (factoryCases ++
      [(asc "swap", fun b => (swapFields b).map fun p => .swapDirect p.1 p.2.1 p.2.2)])))) j)).getD (.raw b)

/-- The instantiate message as the model has it. -/
def classifyInst (b : Bytes) : InstMsg :=
  ((Json.parse b).bind fun j => (asTokenInst j).or ((asPairInst j).or ((asFactoryInst j).or (asRouterInst j)))).getD (.raw b)

/-- A contract is called with bytes: it reads them and handles what it has read (`#[entry_point] execute` of each contract);
no check of ranges here, reading does them. -/
def callBytes (c : Chain) (adv : Adv) (n : Nat) (w : World) (self sender : Addr) (funds : List Coin) (b : Bytes) :
    R (World × List Frame) :=
  let q := querier c (adv.query n) w
  match w.contracts self with
  | none => .error .notFound
  | some ⟨admin, .token s⟩ => do
    let m ← okOr (readExec .token b) .parse
    let (s', r) ← Token.execute c.api w.block s sender m
    return (w.setState self admin (.token s'), frames self r)
  | some ⟨admin, .pair s⟩ => do
    let m ← okOr (readExec .pair b) .parse
    let (s', r) ← Pair.execute c.api q self s sender funds m
    return (w.setState self admin (.pair s'), frames self r)
  | some ⟨admin, .factory s⟩ => do
    let m ← okOr (readExec .factory b) .parse
    let (s', r) ← Factory.execute c.api q self s sender m
    return (w.setState self admin (.factory s'), frames self r)
  | some ⟨admin, .router s⟩ => do
    let m ← okOr (readExec .router b) .parse
    let (s', r) ← Router.execute c.api q self s sender m
    return (w.setState self admin (.router s'), frames self r)
  | some ⟨_, .other⟩ => do
    let ms ← adv.act n self
    return (w, ms.map (Frame.msg self))

/-- A new contract is given bytes. -/
def callInstBytes (c : Chain) (adv : Adv) (n : Nat) (self sender : Addr) (k : Kind) (b : Bytes) : R (CState × List Frame) :=
  match k with
  | .other => do
    let ms ← adv.act n self
    return (.other, ms.map (Frame.msg self))
  | k => do
    let m ← okOr (readInst k b) .parse
    match m with
    | .token t => do
      let s ← Token.instantiate c.api t
      return (.token s, [])
    | .pair assetInfos tokenCodeId assetDecimals requirements => do
      let (s, r) ← Pair.instantiate c.api self { assetInfos, tokenCodeId, assetDecimals, requirements }
      return (.pair s, frames self r)
    | .factory pairCodeId tokenCodeId => do
      let (s, r) ← Factory.instantiate c.api sender pairCodeId tokenCodeId
      return (.factory s, frames self r)
    | .router f => do
      let (s, r) ← Router.instantiate c.api f
      return (.router s, frames self r)
    | .raw _ => .error .parse

end Halo
