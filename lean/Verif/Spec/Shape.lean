import Verif.QueryCodec
import Verif.Spec.JsonText
import Verif.Spec.BigNum
/-! # The shapes of messages

Which JSON value is which message, query or answer, field by field; independent of the readers in `Verif/Codec.lean` and
`Verif/QueryCodec.lean` (only the types of messages are taken from there). -/

namespace Halo
namespace Spec

/-! ## Text inside strings -/

/-- A count: digits, possibly after a plus sign. -/
def CountText (s : Bytes) (n : Nat) : Prop :=
  ∃ p d, s = p ++ d ∧ (p = [] ∨ p = asc "+") ∧ d ≠ [] ∧ _root_.Spec.IsDigits d ∧ n = _root_.Spec.digitsValue d ∧ n < 2 ^ 128

/-- A decimal fraction in units of `10^-18`: a count, or two with a dot between them, of which the second has at most 18 characters
(a plus sign among them counts). -/
inductive FractionText : Bytes → Nat → Prop
  | whole (p : Bytes) (n : Nat) : CountText p n → n * 10 ^ 18 < 2 ^ 128 → FractionText p (n * 10 ^ 18)
  | point (p q : Bytes) (n f : Nat) : CountText p n → CountText q f → q.length ≤ 18 →
      n * 10 ^ 18 + f * 10 ^ (18 - q.length) < 2 ^ 128 → FractionText (p ++ asc "." ++ q) (n * 10 ^ 18 + f * 10 ^ (18 - q.length))

/-- The digits of base64. -/
def base64Digits : Bytes := asc "ABCDEFGHIJKLMNOPQRSTUVWXYZ" ++ asc "abcdefghijklmnopqrstuvwxyz" ++ asc "0123456789+/"

/-- The base64 digit number `i`, counted from the left, of the 24 bits of `n`. -/
def base64Digit (n i : Nat) : UInt8 := base64Digits.getD (n / 64 ^ (3 - i) % 64) 0

/-- The base64 text of bytes (RFC 4648, section 4, with padding). -/
def base64 : Bytes → Bytes
  | [] => []
  | [a] => (List.range 2).map (base64Digit (a.toNat * 65536)) ++ asc "=="
  | [a, b] => (List.range 3).map (base64Digit (a.toNat * 65536 + b.toNat * 256)) ++ asc "="
  | a :: b :: c :: t => (List.range 4).map (base64Digit (a.toNat * 65536 + b.toNat * 256 + c.toNat)) ++ base64 t

/-! ## Parts -/

/-- A string. -/
def IsText (j : Json) (s : Str) : Prop := j = .str s

/-- A 128-bit number, in a string. -/
def IsAmount (j : Json) (n : Nat) : Prop := ∃ s, j = .str s ∧ CountText s n

/-- A decimal fraction, in a string. -/
def IsFraction (j : Json) (d : Nat) : Prop := ∃ s, j = .str s ∧ FractionText s d

/-- A number of at most so many bits. -/
def IsNumber (bits : Nat) (j : Json) (n : Nat) : Prop := j = .num n ∧ n < 2 ^ bits

/-- A time: a 64-bit number, in a string. -/
def IsTime (j : Json) (n : Nat) : Prop := IsAmount j n ∧ n < 2 ^ 64

/-- Bytes, in a string. -/
def IsBytes (j : Json) (b : Bytes) : Prop := j = .str (base64 b)

/-- A list. -/
def IsList {α : Type} (P : Json → α → Prop) (j : Json) (l : List α) : Prop := ∃ js, j = .arr js ∧ List.Forall₂ P js.toList l

/-- An array of two. -/
def IsTwo {α : Type} (P : Json → α → Prop) (j : Json) (p : α × α) : Prop := IsList P j [p.1, p.2]

/-- An object with some of the given fields, each at most once, and no others. -/
def Record (names : List Str) (j : Json) (l : List (Str × Json)) : Prop :=
  (∃ m, j = .obj m ∧ m.toList = l) ∧ (l.map Prod.fst).Nodup ∧ ∀ p ∈ l, p.1 ∈ names

/-- A field that is there. -/
def Has {α : Type} (l : List (Str × Json)) (k : Str) (P : Json → α → Prop) (x : α) : Prop := ∃ j, (k, j) ∈ l ∧ P j x

/-- A field that may be missing, or `null`, for no value. -/
def May {α : Type} (l : List (Str × Json)) (k : Str) (P : Json → α → Prop) : Option α → Prop
  | none => (∀ j, (k, j) ∉ l) ∨ (k, Json.null) ∈ l
  | some x => ∃ j, (k, j) ∈ l ∧ j ≠ .null ∧ P j x

/-- An object with a single member. -/
def single (k : Str) (b : Json) : Json := .obj (.cons k b .nil)

/-! ## Types inside messages -/

/-- `AssetInfo` (`asset.rs:101-105`). -/
inductive IsInfo : Json → AssetInfo → Prop
  | token {b l a} : Record [asc "contract_addr"] b l → Has l (asc "contract_addr") IsText a → IsInfo (single (asc "token") b) (.token a)
  | native {b l d} : Record [asc "denom"] b l → Has l (asc "denom") IsText d → IsInfo (single (asc "native_token") b) (.native d)

/-- `Asset` (`asset.rs:11-15`). -/
def IsAsset (j : Json) (a : Asset) : Prop :=
  ∃ l, Record [asc "info", asc "amount"] j l ∧ Has l (asc "info") IsInfo a.info ∧ Has l (asc "amount") IsAmount a.amount

/-- `CreatePairRequirements` (`asset.rs:92-97`). -/
def IsRequirements (j : Json) (r : Requirements) : Prop :=
  ∃ l, Record [asc "whitelist", asc "first_asset_minimum", asc "second_asset_minimum"] j l ∧
    Has l (asc "whitelist") (IsList IsText) r.whitelist ∧ Has l (asc "first_asset_minimum") IsAmount r.firstAssetMinimum ∧
    Has l (asc "second_asset_minimum") IsAmount r.secondAssetMinimum

/-- `SwapOperation` (`router.rs:12-18`). -/
inductive IsOp : Json → SwapOp → Prop
  | haloSwap {b l o} : Record [asc "offer_asset_info", asc "ask_asset_info"] b l → Has l (asc "offer_asset_info") IsInfo o.offer →
      Has l (asc "ask_asset_info") IsInfo o.ask → IsOp (single (asc "halo_swap") b) o

/-- `Expiration` (cw-utils). -/
inductive IsExpiration : Json → Expiration → Prop
  | atHeight {b n} : IsNumber 64 b n → IsExpiration (single (asc "at_height") b) (.atHeight n)
  | atTime {b n} : IsTime b n → IsExpiration (single (asc "at_time") b) (.atTime n)
  | never {b l} : Record [] b l → IsExpiration (single (asc "never") b) .never

/-- `EmbeddedLogo` (cw20). -/
inductive IsEmbedded : Json → Prop
  | svg {b x} : IsBytes b x → IsEmbedded (single (asc "svg") b)
  | png {b x} : IsBytes b x → IsEmbedded (single (asc "png") b)

/-- `Logo` (cw20). -/
inductive IsLogo : Json → Prop
  | url {b x} : IsText b x → IsLogo (single (asc "url") b)
  | embedded {b} : IsEmbedded b → IsLogo (single (asc "embedded") b)

/-- `MinterResponse` (cw20). -/
def IsMinter (j : Json) (m : MinterResp) : Prop :=
  ∃ l, Record [asc "minter", asc "cap"] j l ∧ Has l (asc "minter") IsText m.minter ∧ May l (asc "cap") IsAmount m.cap

/-- `Cw20Coin` (cw20). -/
def IsCw20Coin (j : Json) (e : Str × Nat) : Prop :=
  ∃ l, Record [asc "address", asc "amount"] j l ∧ Has l (asc "address") IsText e.1 ∧ Has l (asc "amount") IsAmount e.2

/-! ## Payloads -/

/-- The fields of a swap sent with tokens (`pair.rs:43-47`). -/
def SwapFields (b : Json) (price spread : Option Nat) (receiver : Option Str) : Prop :=
  ∃ l, Record [asc "belief_price", asc "max_spread", asc "to"] b l ∧ May l (asc "belief_price") IsFraction price ∧
    May l (asc "max_spread") IsFraction spread ∧ May l (asc "to") IsText receiver

/-- The fields of a route (`router.rs:31-35` and `55-60`). -/
def RouteFields (b : Json) (ops : List SwapOp) (least : Option Nat) (receiver : Option Str) : Prop :=
  ∃ l, Record [asc "operations", asc "minimum_receive", asc "to"] b l ∧ Has l (asc "operations") (IsList IsOp) ops ∧
    May l (asc "minimum_receive") IsAmount least ∧ May l (asc "to") IsText receiver

/-- The pair's `Cw20HookMsg` (`pair.rs:39-48`). -/
inductive PairHook : Json → HookMsg → Prop
  | swap {b p s t} : SwapFields b p s t → PairHook (single (asc "swap") b) (.swap p s t)
  | withdraw {b l} : Record [] b l → PairHook (single (asc "withdraw_liquidity") b) .withdrawLiquidity

/-- The router's `Cw20HookMsg` (`router.rs:54-61`). -/
inductive RouterHook : Json → HookMsg → Prop
  | operations {b o m t} : RouteFields b o m t → RouterHook (single (asc "execute_swap_operations") b) (.executeSwapOperations o m t)

/-- Bytes as a payload of one of the given shapes: a text of it, or, if they are a text of none, just the bytes. -/
def Payload (shape : Json → HookMsg → Prop) (b : Bytes) (h : HookMsg) : Prop :=
  (∃ j, JsonText b j ∧ shape j h) ∨ (∀ j h', JsonText b j → ¬ shape j h') ∧ h = .raw b

/-- A payload, in a string. -/
def IsPayload (shape : Json → HookMsg → Prop) (j : Json) (h : HookMsg) : Prop := ∃ b, IsBytes j b ∧ Payload shape b h

/-- A payload for either contract. -/
def AnyHook (j : Json) (h : HookMsg) : Prop := PairHook j h ∨ RouterHook j h

/-! ## Execute messages -/

/-- cw20 `Cw20ExecuteMsg`. -/
inductive TokenMsg : Json → ExecMsg → Prop
  | transfer {b l r n} : Record [asc "recipient", asc "amount"] b l → Has l (asc "recipient") IsText r → Has l (asc "amount") IsAmount n →
      TokenMsg (single (asc "transfer") b) (.transfer r n)
  | burn {b l n} : Record [asc "amount"] b l → Has l (asc "amount") IsAmount n → TokenMsg (single (asc "burn") b) (.burn n)
  | send {b l c n h} : Record [asc "contract", asc "amount", asc "msg"] b l → Has l (asc "contract") IsText c →
      Has l (asc "amount") IsAmount n → Has l (asc "msg") (IsPayload AnyHook) h → TokenMsg (single (asc "send") b) (.send c n h)
  | increase {b l s n e} : Record [asc "spender", asc "amount", asc "expires"] b l → Has l (asc "spender") IsText s →
      Has l (asc "amount") IsAmount n → May l (asc "expires") IsExpiration e →
      TokenMsg (single (asc "increase_allowance") b) (.increaseAllowance s n e)
  | decrease {b l s n e} : Record [asc "spender", asc "amount", asc "expires"] b l → Has l (asc "spender") IsText s →
      Has l (asc "amount") IsAmount n → May l (asc "expires") IsExpiration e →
      TokenMsg (single (asc "decrease_allowance") b) (.decreaseAllowance s n e)
  | transferFrom {b l o r n} : Record [asc "owner", asc "recipient", asc "amount"] b l → Has l (asc "owner") IsText o →
      Has l (asc "recipient") IsText r → Has l (asc "amount") IsAmount n →
      TokenMsg (single (asc "transfer_from") b) (.transferFrom o r n)
  | sendFrom {b l o c n h} : Record [asc "owner", asc "contract", asc "amount", asc "msg"] b l → Has l (asc "owner") IsText o →
      Has l (asc "contract") IsText c → Has l (asc "amount") IsAmount n → Has l (asc "msg") (IsPayload AnyHook) h →
      TokenMsg (single (asc "send_from") b) (.sendFrom o c n h)
  | burnFrom {b l o n} : Record [asc "owner", asc "amount"] b l → Has l (asc "owner") IsText o → Has l (asc "amount") IsAmount n →
      TokenMsg (single (asc "burn_from") b) (.burnFrom o n)
  | mint {b l r n} : Record [asc "recipient", asc "amount"] b l → Has l (asc "recipient") IsText r → Has l (asc "amount") IsAmount n →
      TokenMsg (single (asc "mint") b) (.mint r n)
  | updateMinter {b l m} : Record [asc "new_minter"] b l → May l (asc "new_minter") IsText m →
      TokenMsg (single (asc "update_minter") b) (.updateMinter m)
  | updateMarketing {b l p d m} : Record [asc "project", asc "description", asc "marketing"] b l → May l (asc "project") IsText p →
      May l (asc "description") IsText d → May l (asc "marketing") IsText m → TokenMsg (single (asc "update_marketing") b) .marketing
  | uploadLogo {b} : IsLogo b → TokenMsg (single (asc "upload_logo") b) .marketing

/-- cw20 `Cw20ReceiveMsg`. -/
def ReceiveFields (shape : Json → HookMsg → Prop) (b : Json) (sender : Str) (n : Nat) (h : HookMsg) : Prop :=
  ∃ l, Record [asc "sender", asc "amount", asc "msg"] b l ∧ Has l (asc "sender") IsText sender ∧ Has l (asc "amount") IsAmount n ∧
    Has l (asc "msg") (IsPayload shape) h

/-- The pair's `ExecuteMsg` (`pair.rs:19-36`). -/
inductive PairMsg : Json → ExecMsg → Prop
  | receive {b s n h} : ReceiveFields PairHook b s n h → PairMsg (single (asc "receive") b) (.receive s n h)
  | provide {b l as t r} : Record [asc "assets", asc "slippage_tolerance", asc "receiver"] b l → Has l (asc "assets") (IsTwo IsAsset) as →
      May l (asc "slippage_tolerance") IsFraction t → May l (asc "receiver") IsText r →
      PairMsg (single (asc "provide_liquidity") b) (.provideLiquidity as t r)

/-- The router's `ExecuteMsg` (`router.rs:28-52`). -/
inductive RouterMsg : Json → ExecMsg → Prop
  | receive {b s n h} : ReceiveFields RouterHook b s n h → RouterMsg (single (asc "receive") b) (.receive s n h)
  | operations {b o m t} : RouteFields b o m t → RouterMsg (single (asc "execute_swap_operations") b) (.executeSwapOperations o m t)
  | operation {b l o t} : Record [asc "operation", asc "to"] b l → Has l (asc "operation") IsOp o → May l (asc "to") IsText t →
      RouterMsg (single (asc "execute_swap_operation") b) (.executeSwapOperation o t)
  | assertMinimum {b l i p m r} : Record [asc "asset_info", asc "prev_balance", asc "minimum_receive", asc "receiver"] b l →
      Has l (asc "asset_info") IsInfo i → Has l (asc "prev_balance") IsAmount p → Has l (asc "minimum_receive") IsAmount m →
      Has l (asc "receiver") IsText r → RouterMsg (single (asc "assert_minimum_receive") b) (.assertMinimumReceive i p m r)

/-- The factory's `ExecuteMsg` (`factory.rs:12-35`). -/
inductive FactoryMsg : Json → ExecMsg → Prop
  | updateConfig {b l o t p} : Record [asc "owner", asc "token_code_id", asc "pair_code_id"] b l → May l (asc "owner") IsText o →
      May l (asc "token_code_id") (IsNumber 64) t → May l (asc "pair_code_id") (IsNumber 64) p →
      FactoryMsg (single (asc "update_config") b) (.updateConfig o t p)
  | createPair {b l is r} : Record [asc "asset_infos", asc "requirements"] b l → Has l (asc "asset_infos") (IsTwo IsInfo) is →
      Has l (asc "requirements") IsRequirements r → FactoryMsg (single (asc "create_pair") b) (.createPair is r)
  | addNative {b l d n} : Record [asc "denom", asc "decimals"] b l → Has l (asc "denom") IsText d → Has l (asc "decimals") (IsNumber 8) n →
      FactoryMsg (single (asc "add_native_token_decimals") b) (.addNativeTokenDecimals d n)
  | migratePair {b l c k} : Record [asc "contract", asc "code_id"] b l → Has l (asc "contract") IsText c →
      May l (asc "code_id") (IsNumber 64) k → FactoryMsg (single (asc "migrate_pair") b) (.migratePair c k)

/-- The execute messages of each contract. -/
def MsgShape : Kind → Json → ExecMsg → Prop
  | .token => TokenMsg
  | .pair => PairMsg
  | .router => RouterMsg
  | .factory => FactoryMsg
  | .other => fun _ _ => False

/-! ## Instantiate messages -/

/-- The instantiate messages of each contract (`token.rs:7-14`, `pair.rs:8-17`, `factory.rs:5-10`, `router.rs:7-10`). -/
inductive InstShape : Kind → Json → InstMsg → Prop
  | token {j l m} : Record [asc "name", asc "symbol", asc "decimals", asc "initial_balances", asc "mint"] j l →
      Has l (asc "name") IsText m.name → Has l (asc "symbol") IsText m.symbol → Has l (asc "decimals") (IsNumber 8) m.decimals →
      Has l (asc "initial_balances") (IsList IsCw20Coin) m.initialBalances → May l (asc "mint") IsMinter m.mint →
      InstShape .token j (.token m)
  | pair {j l is t d r} : Record [asc "asset_infos", asc "token_code_id", asc "asset_decimals", asc "requirements"] j l →
      Has l (asc "asset_infos") (IsTwo IsInfo) is → Has l (asc "token_code_id") (IsNumber 64) t →
      Has l (asc "asset_decimals") (IsTwo (IsNumber 8)) d → Has l (asc "requirements") IsRequirements r →
      InstShape .pair j (.pair is t d r)
  | factory {j l p t} : Record [asc "pair_code_id", asc "token_code_id"] j l → Has l (asc "pair_code_id") (IsNumber 64) p →
      Has l (asc "token_code_id") (IsNumber 64) t → InstShape .factory j (.factory p t)
  | router {j l f} : Record [asc "halo_factory"] j l → Has l (asc "halo_factory") IsText f → InstShape .router j (.router f)

/-! ## Queries -/

/-- The queries of each contract (cw20-base 1.0.0 `QueryMsg`, `pair.rs:50-61`, `factory.rs:37-51`, `router.rs:63-78`). -/
inductive QueryShape : Kind → Json → QueryMsg → Prop
  | balance {b l a} : Record [asc "address"] b l → Has l (asc "address") IsText a → QueryShape .token (single (asc "balance") b) (.balance a)
  | tokenInfo {b l} : Record [] b l → QueryShape .token (single (asc "token_info") b) .tokenInfo
  | minter {b l} : Record [] b l → QueryShape .token (single (asc "minter") b) .minter
  | allowance {b l o s} : Record [asc "owner", asc "spender"] b l → Has l (asc "owner") IsText o → Has l (asc "spender") IsText s →
      QueryShape .token (single (asc "allowance") b) (.allowance o s)
  | allAllowances {b l o s n} : Record [asc "owner", asc "start_after", asc "limit"] b l → Has l (asc "owner") IsText o →
      May l (asc "start_after") IsText s → May l (asc "limit") (IsNumber 32) n →
      QueryShape .token (single (asc "all_allowances") b) (.allAllowances o s n)
  | allSpenderAllowances {b l o s n} : Record [asc "spender", asc "start_after", asc "limit"] b l → Has l (asc "spender") IsText o →
      May l (asc "start_after") IsText s → May l (asc "limit") (IsNumber 32) n →
      QueryShape .token (single (asc "all_spender_allowances") b) (.allSpenderAllowances o s n)
  | allAccounts {b l s n} : Record [asc "start_after", asc "limit"] b l → May l (asc "start_after") IsText s →
      May l (asc "limit") (IsNumber 32) n → QueryShape .token (single (asc "all_accounts") b) (.allAccounts s n)
  | marketingInfo {b l} : Record [] b l → QueryShape .token (single (asc "marketing_info") b) .marketingInfo
  | downloadLogo {b l} : Record [] b l → QueryShape .token (single (asc "download_logo") b) .downloadLogo
  | pair {b l} : Record [] b l → QueryShape .pair (single (asc "pair") b) .pair
  | pool {b l} : Record [] b l → QueryShape .pair (single (asc "pool") b) .pool
  | simulation {b l a} : Record [asc "offer_asset"] b l → Has l (asc "offer_asset") IsAsset a →
      QueryShape .pair (single (asc "simulation") b) (.simulation a)
  | reverseSimulation {b l a} : Record [asc "ask_asset"] b l → Has l (asc "ask_asset") IsAsset a →
      QueryShape .pair (single (asc "reverse_simulation") b) (.reverseSimulation a)
  | factoryConfig {b l} : Record [] b l → QueryShape .factory (single (asc "config") b) .config
  | pairOf {b l is} : Record [asc "asset_infos"] b l → Has l (asc "asset_infos") (IsTwo IsInfo) is →
      QueryShape .factory (single (asc "pair") b) (.pairOf is)
  | pairs {b l s n} : Record [asc "start_after", asc "limit"] b l → May l (asc "start_after") (IsTwo IsInfo) s →
      May l (asc "limit") (IsNumber 32) n → QueryShape .factory (single (asc "pairs") b) (.pairs s n)
  | nativeTokenDecimals {b l d} : Record [asc "denom"] b l → Has l (asc "denom") IsText d →
      QueryShape .factory (single (asc "native_token_decimals") b) (.nativeTokenDecimals d)
  | routerConfig {b l} : Record [] b l → QueryShape .router (single (asc "config") b) .config
  | simulate {b l n o} : Record [asc "offer_amount", asc "operations"] b l → Has l (asc "offer_amount") IsAmount n →
      Has l (asc "operations") (IsList IsOp) o → QueryShape .router (single (asc "simulate_swap_operations") b) (.simulateSwapOperations n o)
  | reverseSimulate {b l n o} : Record [asc "ask_amount", asc "operations"] b l → Has l (asc "ask_amount") IsAmount n →
      Has l (asc "operations") (IsList IsOp) o →
      QueryShape .router (single (asc "reverse_simulate_swap_operations") b) (.reverseSimulateSwapOperations n o)

/-! ## Answers the contracts read -/

/-- cw20 `BalanceResponse`. -/
def IsBalance (j : Json) (n : Nat) : Prop := ∃ l, Record [asc "balance"] j l ∧ Has l (asc "balance") IsAmount n

/-- cw20 `TokenInfoResponse`. -/
def IsTokenInfo (j : Json) (t : TokenInfoResp) : Prop :=
  ∃ l, Record [asc "name", asc "symbol", asc "decimals", asc "total_supply"] j l ∧ Has l (asc "name") IsText t.name ∧
    Has l (asc "symbol") IsText t.symbol ∧ Has l (asc "decimals") (IsNumber 8) t.decimals ∧ Has l (asc "total_supply") IsAmount t.totalSupply

/-- `PairInfo` (`asset.rs:254-261`). -/
def IsPairInfo (j : Json) (p : PairInfo) : Prop :=
  ∃ l, Record [asc "asset_infos", asc "contract_addr", asc "liquidity_token", asc "asset_decimals", asc "requirements"] j l ∧
    Has l (asc "asset_infos") (IsTwo IsInfo) p.assetInfos ∧ Has l (asc "contract_addr") IsText p.contractAddr ∧
    Has l (asc "liquidity_token") IsText p.liquidityToken ∧ Has l (asc "asset_decimals") (IsTwo (IsNumber 8)) p.assetDecimals ∧
    Has l (asc "requirements") IsRequirements p.requirements

/-- `SimulationResponse` and `ReverseSimulationResponse` (`pair.rs:71-84`). -/
def IsSimulation (first : Str) (j : Json) (r : SimResp) : Prop :=
  ∃ l, Record [first, asc "spread_amount", asc "commission_amount"] j l ∧ Has l first IsAmount r.amount ∧
    Has l (asc "spread_amount") IsAmount r.spread ∧ Has l (asc "commission_amount") IsAmount r.commission

/-- `NativeTokenDecimalsResponse` (`factory.rs:71-74`). -/
def IsDecimals (j : Json) (n : Nat) : Prop := ∃ l, Record [asc "decimals"] j l ∧ Has l (asc "decimals") (IsNumber 8) n

end Spec
end Halo
