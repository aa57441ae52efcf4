import Verif.Types
/-!
# halo-pair (`contracts/halo-pair/src/contract.rs`)

Line numbers without a file name refer to `contracts/halo-pair/src/contract.rs`.
-/

namespace Halo
namespace Pair

/-- Storage of a pair: `PAIR_INFO` (`contracts/halo-pair/src/state.rs`). -/
abbrev State := PairInfoRaw

/-- `INSTANTIATE_REPLY_ID` (line 31). -/
def instantiateReplyId : Nat := 1

/-- `COMMISSION_RATE: &str = "0.003"` (line 34). -/
def commissionRateStr : Str := [48, 46, 48, 48, 51]

/-- `Decimal256::from_str(COMMISSION_RATE).unwrap()` (lines 605, 657). -/
def commissionRate : R Nat :=
  match Dec256.fromStr commissionRateStr with
  | .ok v => .ok v
  | .error (.panic p) => .error (.panic p)
  | .error _ => .error (.panic .unwrap)

/-- `compute_swap` (lines 595-634): `(return, spread, commission)`. -/
def computeSwap (offerPool askPool offerAmount : Nat) : R (Nat × Nat × Nat) := do
  let offerPool := Uint256.ofU128 offerPool
  let askPool := Uint256.ofU128 askPool
  let offerAmount := Uint256.ofU128 offerAmount
  let commissionRate ← commissionRate
  let cp ← Uint256.mul offerPool askPool
  let askDec ← Dec256.fromUint256 askPool
  let sum ← Uint256.add offerPool offerAmount
  let left ← Dec256.fromRatio cp sum
  let diff ← Dec256.sub askDec left
  let returnAmount ← Uint256.mulDec Uint256.one diff
  let price ← Dec256.fromRatio askPool offerPool
  let ideal ← Uint256.mulDec offerAmount price
  let spreadAmount ← Uint256.sub ideal returnAmount
  let commissionAmount ← Uint256.mulDec returnAmount commissionRate
  let returnAmount ← Uint256.sub returnAmount commissionAmount
  let r ← Uint256.toU128 returnAmount
  let s ← Uint256.toU128 spreadAmount
  let c ← Uint256.toU128 commissionAmount
  return (r, s, c)

/-- `if a > b { a - b } else { Uint256::zero() }` (lines 675-679 and 744-748). -/
def subOrZero (a b : Nat) : R Nat := if a > b then Uint256.sub a b else .ok Uint256.zero

/-- `compute_offer_amount` (lines 648-688): `(offer, spread, commission)`. -/
def computeOfferAmount (offerPool askPool askAmount : Nat) : R (Nat × Nat × Nat) := do
  let offerPool := Uint256.ofU128 offerPool
  let askPool := Uint256.ofU128 askPool
  let askAmount := Uint256.ofU128 askAmount
  let commissionRate ← commissionRate
  let cp ← Uint256.mul offerPool askPool
  let oneMinusCommission ← Dec256.sub Dec256.one commissionRate
  let invOneMinusCommission ← Dec256.div Dec256.one oneMinusCommission
  let beforeCommission ← Uint256.mulDec askAmount invOneMinusCommission
  let remaining ← Uint256.sub askPool beforeCommission
  let newOfferPool ← Uint256.multiplyRatio Uint256.one cp remaining
  let offerAmount ← Uint256.sub newOfferPool offerPool
  let beforeCommissionDeduction ← Uint256.mulDec askAmount invOneMinusCommission
  let price ← Dec256.fromRatio askPool offerPool
  let beforeSpreadDeduction ← Uint256.mulDec offerAmount price
  let spreadAmount ← subOrZero beforeSpreadDeduction beforeCommissionDeduction
  let commissionAmount ← Uint256.mulDec beforeCommissionDeduction commissionRate
  let o ← Uint256.toU128 offerAmount
  let s ← Uint256.toU128 spreadAmount
  let c ← Uint256.toU128 commissionAmount
  return (o, s, c)

/-- The decimal scaling at the start of `assert_max_spread` (lines 702-735):
`(offer, return, spread)` brought to a common number of decimals. -/
def scaleDecimals (offer ret spread offerDecimal returnDecimal : Nat) : R (Nat × Nat × Nat) :=
  if offerDecimal > returnDecimal then do
    let diff ← Uint128.pow10u64 (offerDecimal - returnDecimal)
    let r ← Uint128.checkedMul ret diff
    let s ← Uint128.checkedMul spread diff
    return (Uint256.ofU128 offer, Uint256.ofU128 r, Uint256.ofU128 s)
  else if offerDecimal < returnDecimal then do
    let diff ← Uint128.pow10u64 (returnDecimal - offerDecimal)
    let o ← Uint128.checkedMul offer diff
    return (Uint256.ofU128 o, Uint256.ofU128 ret, Uint256.ofU128 spread)
  else return (Uint256.ofU128 offer, Uint256.ofU128 ret, Uint256.ofU128 spread)

/-- `assert_max_spread` (lines 693-761). Only the amounts of the two assets are read. -/
def assertMaxSpread (beliefPrice maxSpread : Option Nat) (offerAmount returnAmount spreadAmount : Nat)
    (offerDecimal returnDecimal : Nat) : R Unit := do
  let (offerAmount, returnAmount, spreadAmount) ←
    scaleDecimals offerAmount returnAmount spreadAmount offerDecimal returnDecimal
  match maxSpread, beliefPrice with
  | some maxSpread, some beliefPrice => do
    let beliefPrice ← Dec256.ofDecimal beliefPrice
    let maxSpread ← Dec256.ofDecimal maxSpread
    let expectedReturn ← Uint256.divDec offerAmount beliefPrice
    let spreadAmount ← subOrZero expectedReturn returnAmount
    if returnAmount < expectedReturn then do
      let r ← Dec256.fromRatio spreadAmount expectedReturn
      require (¬ r > maxSpread) .maxSpread
    else return ()
  | some maxSpread, none => do
    let maxSpread ← Dec256.ofDecimal maxSpread
    let sum ← Uint256.add returnAmount spreadAmount
    let r ← Dec256.fromRatio spreadAmount sum
    require (¬ r > maxSpread) .maxSpread
  | none, _ => return ()

/-- `assert_slippage_tolerance` (lines 763-791). Error 30: "slippage_tolerance cannot bigger than 1". -/
def assertSlippageTolerance (slippageTolerance : Option Nat) (deposits pools : Nat × Nat) : R Unit :=
  match slippageTolerance with
  | none => return ()
  | some st => do
    let t ← Dec256.ofDecimal st
    require (¬ t > Dec256.one) (.generic 30)
    let omt ← Dec256.sub Dec256.one t
    let d0 := Uint256.ofU128 deposits.1
    let d1 := Uint256.ofU128 deposits.2
    let p0 := Uint256.ofU128 pools.1
    let p1 := Uint256.ofU128 pools.2
    let r01 ← Dec256.fromRatio d0 d1
    let l01 ← Dec256.mul r01 omt
    let q01 ← Dec256.fromRatio p0 p1
    require (¬ l01 > q01) .maxSlippage
    let r10 ← Dec256.fromRatio d1 d0
    let l10 ← Dec256.mul r10 omt
    let q10 ← Dec256.fromRatio p1 p0
    require (¬ l10 > q10) .maxSlippage

/-! ## Entry points -/

/-- Arguments of the pair's `InstantiateMsg` (`packages/haloswap/src/pair.rs:8-17`). -/
structure Inst where
  assetInfos : AssetInfo × AssetInfo
  tokenCodeId : Nat
  assetDecimals : Nat × Nat
  requirements : Requirements

/-- `"halo liquidity token"` (line 65). -/
def lpName : Str := [104, 97, 108, 111, 32, 108, 105, 113, 117, 105, 100, 105, 116, 121, 32, 116, 111, 107, 101, 110]
/-- `"uLP"` (line 66). -/
def lpSymbol : Str := [117, 76, 80]

/-- The LP token's instantiate message (lines 63-73). -/
def lpInst (self : Addr) : TokenInst :=
  { name := lpName, symbol := lpSymbol, decimals := 6, initialBalances := [],
    mint := some { minter := self, cap := none } }

/-- `instantiate` (lines 36-80). `set_contract_version` is in `Store.lean`. -/
def instantiate (api : Api) (self : Addr) (m : Inst) : R (State × Response) := do
  let ca ← api.canonicalize self
  let a0 ← m.assetInfos.1.toRaw api
  let a1 ← m.assetInfos.2.toRaw api
  let st : State :=
    { contractAddr := ca, liquidityToken := [], assetInfos := (a0, a1),
      assetDecimals := m.assetDecimals, requirements := m.requirements }
  return (st, { messages :=
    [⟨.inst none m.tokenCodeId (.token (lpInst self)) [], some instantiateReplyId⟩] })

/-- `reply` (lines 194-205). `created` is what `parse_reply_instantiate_data` extracts (`Reply.lean`); parsing
fails (`unwrap` panics) when the reply is not for an instantiation. -/
def reply (api : Api) (st : State) (created : Option Addr) : R (State × Response) := do
  let lt ← okOr created (.panic .unwrap)
  let c ← api.canonicalize lt
  return ({ st with liquidityToken := c }, { events := [.liquidityToken lt] })

/-- `assets.iter().find(|a| a.info.equal(&pool)).map(|a| a.amount).expect(..)` (lines 229-240). -/
def depositFor (assets : Asset × Asset) (pool : AssetInfo) : R Nat :=
  match [assets.1, assets.2].find? (fun a => a.info.equal pool) with
  | some a => .ok a.amount
  | none => .error (.panic .wrongAsset)

/-- One iteration of the loop of lines 247-266: the `TransferFrom` message for a token, or the native pool
reduced by the deposit. -/
def collect (self sender : Addr) (pool : Asset) (deposit : Nat) : R (List CosmosMsg × Asset) :=
  match pool.info with
  | .token contractAddr => .ok ([.exec contractAddr (.transferFrom sender self deposit) []], pool)
  | .native _ => do
    let a ← Uint128.checkedSub pool.amount deposit
    return ([], { pool with amount := a })

/-- The share computation (lines 278-311). Errors 31 "the sender is not in whitelist",
32 "the minimum deposit is not satisfied". -/
def shareFor (req : Requirements) (sender : Addr) (totalShare : Nat) (deposits pools : Nat × Nat) :
    R Nat :=
  if totalShare = 0 then do
    require (req.whitelist.contains sender) (.generic 31)
    require (¬ (deposits.1 < req.firstAssetMinimum ∨ deposits.2 < req.secondAssetMinimum)) (.generic 32)
    let p ← Uint128.mulChk deposits.1 deposits.2
    return Uint128.isqrt p
  else do
    let s0 ← Uint128.multiplyRatio deposits.1 totalShare pools.1
    let s1 ← Uint128.multiplyRatio deposits.2 totalShare pools.2
    return min s0 s1

/-- `provide_liquidity` (lines 208-340). -/
def provideLiquidity (api : Api) (q : Querier) (self : Addr) (st : State) (sender : Addr)
    (funds : List Coin) (assets : Asset × Asset) (slippageTolerance : Option Nat)
    (receiver : Option Str) : R (State × Response) := do
  assets.1.assertSent funds
  assets.2.assertSent funds
  let pools ← st.queryPools q api self
  let d0 ← depositFor assets pools.1.info
  let d1 ← depositFor assets pools.2.info
  let (m0, p0) ← collect self sender pools.1 d0
  let (m1, p1) ← collect self sender pools.2 d1
  assertSlippageTolerance slippageTolerance (d0, d1) (p0.amount, p1.amount)
  let lt ← api.humanize st.liquidityToken
  let ti ← q.tokenInfo lt
  let share ← shareFor st.requirements sender ti.totalSupply (d0, d1) (p0.amount, p1.amount)
  require (share ≠ 0) .invalidZeroAmount
  let rcv := receiver.getD sender
  let lt ← api.humanize st.liquidityToken
  let mintMsg : CosmosMsg := .exec lt (.mint rcv share) []
  return (st, { messages := (m0 ++ m1 ++ [mintMsg]).map plain,
                events := [.provideLiquidity sender rcv assets share] })

/-- `withdraw_liquidity` (lines 342-388). -/
def withdrawLiquidity (api : Api) (q : Querier) (self : Addr) (st : State) (sender : Addr)
    (amount : Nat) : R (State × Response) := do
  let lt ← api.humanize st.liquidityToken
  let pools ← st.queryPools q api self
  let ti ← q.tokenInfo lt
  let shareRatio ← Uint128.decFromRatio amount ti.totalSupply
  let r0 ← Uint128.mulDecimal pools.1.amount shareRatio
  let r1 ← Uint128.mulDecimal pools.2.amount shareRatio
  let refund0 : Asset := { info := pools.1.info, amount := r0 }
  let refund1 : Asset := { info := pools.2.info, amount := r1 }
  let lt ← api.humanize st.liquidityToken
  return (st,
    { messages := [plain (refund0.intoMsg sender), plain (refund1.intoMsg sender),
                   plain (.exec lt (.burn amount) [])],
      events := [.withdrawLiquidity sender amount (refund0, refund1)] })

/-- Which pool is offered (lines 410-438, also 526-537): offer pool, ask pool, and their decimals. -/
def pick (st : State) (pools : Asset × Asset) (offer : AssetInfo) :
    R ((Asset × Asset) × (Nat × Nat)) :=
  if offer.equal pools.1.info then .ok ((pools.1, pools.2), (st.assetDecimals.1, st.assetDecimals.2))
  else if offer.equal pools.2.info then
    .ok ((pools.2, pools.1), (st.assetDecimals.2, st.assetDecimals.1))
  else .error .assetMismatch

/-- `swap` (lines 392-477). The offer pool's amount is reduced by the offer with `checked_sub`. -/
def swap (api : Api) (q : Querier) (self : Addr) (st : State) (funds : List Coin) (sender : Str)
    (offerAsset : Asset) (beliefPrice maxSpread : Option Nat) (to : Option Addr) :
    R (State × Response) := do
  offerAsset.assertSent funds
  let pools ← st.queryPools q api self
  let ((offerPool, askPool), (offerDecimal, askDecimal)) ← pick st pools offerAsset.info
  let offerPoolAmount ← Uint128.checkedSub offerPool.amount offerAsset.amount
  let (returnAmount, spreadAmount, commissionAmount) ←
    computeSwap offerPoolAmount askPool.amount offerAsset.amount
  assertMaxSpread beliefPrice maxSpread offerAsset.amount returnAmount spreadAmount
    offerDecimal askDecimal
  let receiver := to.getD sender
  let returnAsset : Asset := { info := askPool.info, amount := returnAmount }
  let messages := if returnAmount ≠ 0 then [plain (returnAsset.intoMsg receiver)] else []
  return (st, { messages,
                events := [.swap sender receiver offerAsset.info askPool.info offerAsset.amount
                  returnAmount spreadAmount commissionAmount] })

/-- Authorisation loop of the swap hook (lines 142-154): the caller is one of the pair's cw20 assets. -/
def isAssetToken (pools : Asset × Asset) (caller : Addr) : Bool :=
  [pools.1, pools.2].any (fun p => match p.info with
    | .token contractAddr => decide (contractAddr = caller)
    | .native _ => false)

/-- `receive_cw20` (lines 126-190). `caller` is `info.sender`, the remaining arguments are the fields of
`Cw20ReceiveMsg`. -/
def receiveCw20 (api : Api) (q : Querier) (self : Addr) (st : State) (caller : Addr)
    (funds : List Coin) (sender : Str) (amount : Nat) (msg : HookMsg) : R (State × Response) :=
  match msg with
  | .swap beliefPrice maxSpread to => do
    let pools ← st.queryPools q api self
    require (isAssetToken pools caller) .unauthorized
    let toAddr ← optValidate api to
    swap api q self st funds sender { info := .token caller, amount := amount }
      beliefPrice maxSpread toAddr
  | .withdrawLiquidity => do
    let c ← api.canonicalize caller
    require (c = st.liquidityToken) .unauthorized
    let senderAddr ← api.validate sender
    withdrawLiquidity api q self st senderAddr amount
  | .executeSwapOperations _ _ _ => .error .parse
  | .raw _ => .error .parse

/-- `execute` (lines 83-124): only `Receive` and `ProvideLiquidity` exist (the `Swap` variant is commented
out, lines 96-122, `packages/haloswap/src/pair.rs:29-35`). -/
def execute (api : Api) (q : Querier) (self : Addr) (st : State) (caller : Addr) (funds : List Coin) :
    ExecMsg → R (State × Response)
  | .receive sender amount msg => receiveCw20 api q self st caller funds sender amount msg
  | .provideLiquidity assets slippageTolerance receiver =>
    provideLiquidity api q self st caller funds assets slippageTolerance receiver
  | _ => .error .parse

/-! ## Queries (lines 480-583) -/

/-- `query_pair_info` (lines 493-498). -/
def queryPairInfo (api : Api) (st : State) : R PairInfo := st.toNormal api

/-- `query_pool` (lines 500-516). -/
def queryPool (api : Api) (q : Querier) (st : State) : R PoolResp := do
  let ca ← api.humanize st.contractAddr
  let assets ← st.queryPools q api ca
  let lt ← api.humanize st.liquidityToken
  let ti ← q.tokenInfo lt
  return { assets, totalShare := ti.totalSupply }

/-- `query_simulation` (lines 518-547). -/
def querySimulation (api : Api) (q : Querier) (st : State) (offerAsset : Asset) : R SimResp := do
  let ca ← api.humanize st.contractAddr
  let pools ← st.queryPools q api ca
  let ((offerPool, askPool), _) ← pick st pools offerAsset.info
  let (returnAmount, spreadAmount, commissionAmount) ←
    computeSwap offerPool.amount askPool.amount offerAsset.amount
  return { amount := returnAmount, spread := spreadAmount, commission := commissionAmount }

/-- `query_reverse_simulation` (lines 549-583). -/
def queryReverseSimulation (api : Api) (q : Querier) (st : State) (askAsset : Asset) : R SimResp := do
  let ca ← api.humanize st.contractAddr
  let pools ← st.queryPools q api ca
  let (offerPool, askPool) ←
    (if askAsset.info.equal pools.1.info then .ok (pools.2, pools.1)
     else if askAsset.info.equal pools.2.info then .ok (pools.1, pools.2)
     else .error .assetMismatch : R (Asset × Asset))
  let (offerAmount, spreadAmount, commissionAmount) ←
    computeOfferAmount offerPool.amount askPool.amount askAsset.amount
  return { amount := offerAmount, spread := spreadAmount, commission := commissionAmount }

/-- `migrate` (lines 794-798): only the contract version is written, which is not part of `State`; see `migrateS` in `Store.lean`. -/
def migrate (st : State) : R (State × Response) := .ok (st, {})

end Pair
end Halo
