import Verif.Chain
/-! # The numbers in messages and in storage, with the widths of their Rust types (for C82)

Each number is listed as a pair (width in bits, value). The widths are those of the message and storage types:
`Uint128` and `Decimal` 128, `u64` code ids 64, `u8` decimals 8
(`packages/haloswap/src/{asset,pair,factory,router,token}.rs`, `contracts/halo-factory/src/state.rs`, cw20 and cw20-base). -/

namespace Halo
namespace Spec

/-- Every listed number fits the width listed with it. -/
def FitsAll (l : List (Nat × Nat)) : Prop := ∀ e ∈ l, e.2 < 2 ^ e.1

/-- Optional `Uint128`s or `Decimal`s. -/
def opt128 (o : Option Nat) : List (Nat × Nat) := o.toList.map fun v => (128, v)

/-- Optional `u64`s. -/
def opt64 (o : Option Nat) : List (Nat × Nat) := o.toList.map fun v => (64, v)

/-- The numbers of `CreatePairRequirements`. -/
def reqNumbers (r : Requirements) : List (Nat × Nat) := [(128, r.firstAssetMinimum), (128, r.secondAssetMinimum)]

/-- The numbers in the payload of a `Receive` message. -/
def hookNumbers : HookMsg → List (Nat × Nat)
  | .swap b m _ => opt128 b ++ opt128 m
  | .executeSwapOperations _ m _ => opt128 m
  | .withdrawLiquidity | .raw _ => []

/-- The expiration in a message. -/
def expiryOf : ExecMsg → Option Expiration
  | .increaseAllowance _ _ e | .decreaseAllowance _ _ e => e
  | _ => none

/-- Block heights and times are `u64`. -/
def expiryNumbers : Expiration → List (Nat × Nat)
  | .atHeight n | .atTime n => [(64, n)]
  | .never => []

/-- The numbers in an execute message, without its expiration and without those in a payload that is only passed on. -/
def execNumbers : ExecMsg → List (Nat × Nat)
  | .transfer _ a | .burn a | .send _ a _ | .increaseAllowance _ a _ | .decreaseAllowance _ a _ | .transferFrom _ _ a
  | .sendFrom _ _ a _ | .burnFrom _ a | .mint _ a | .receive _ a _ => [(128, a)]
  | .provideLiquidity as t _ => [(128, as.1.amount), (128, as.2.amount)] ++ opt128 t
  | .executeSwapOperations _ m _ => opt128 m
  | .assertMinimumReceive _ p m _ => [(128, p), (128, m)]
  | .updateConfig _ t p => opt64 t ++ opt64 p
  | .createPair _ r => reqNumbers r
  | .addNativeTokenDecimals _ d => [(8, d)]
  | .migratePair _ k => opt64 k
  | .swapDirect b m _ => opt128 b ++ opt128 m
  | .updateMinter _ | .marketing | .executeSwapOperation _ _ | .raw _ => []

/-- The numbers in the payload of an execute message that its receiver decodes. -/
def payloadNumbers : ExecMsg → List (Nat × Nat)
  | .receive _ _ m => hookNumbers m
  | _ => []

/-- The numbers in an instantiate message. -/
def instNumbers : InstMsg → List (Nat × Nat)
  | .token m => (8, m.decimals) :: m.initialBalances.map (fun e => (128, e.2)) ++ opt128 (m.mint.bind (·.cap))
  | .pair _ t d r => [(64, t), (8, d.1), (8, d.2)] ++ reqNumbers r
  | .factory p t => [(64, p), (64, t)]
  | .router _ | .raw _ => []

/-- The amounts of coins. -/
def coinNumbers (l : List Coin) : List (Nat × Nat) := l.map fun k => (128, k.amount)

/-- The numbers a contract puts into a message of its own. -/
def msgNumbers : CosmosMsg → List (Nat × Nat)
  | .bankSend _ l => coinNumbers l
  | .exec _ m l => execNumbers m ++ coinNumbers l
  | .inst _ code m l => (64, code) :: instNumbers m ++ coinNumbers l
  | .migrate _ code => [(64, code)]
  | .updateAdmin _ _ => []

/-- The numbers in what is stored about a pair, by the pair itself or by a factory. -/
def pairNumbers (p : PairInfoRaw) : List (Nat × Nat) := [(8, p.assetDecimals.1), (8, p.assetDecimals.2)] ++ reqNumbers p.requirements

/-- The numbers in a contract's storage. -/
def storedNumbers : CState → List (Nat × Nat)
  | .token s => [(8, s.decimals), (128, s.totalSupply)] ++ opt128 (s.mint.bind (·.cap)) ++
      s.balances.map (fun e => (128, e.2)) ++ s.allowances.map (fun e => (128, e.2.amount)) ++
      s.allowances.flatMap (fun e => expiryNumbers e.2.expires)
  | .pair s => pairNumbers s
  | .factory s => [(64, s.config.pairCodeId), (64, s.config.tokenCodeId)] ++
      s.tmp.toList.flatMap (fun t => [(8, t.assetDecimals.1), (8, t.assetDecimals.2)]) ++
      s.pairs.flatMap (fun e => pairNumbers e.2) ++ s.allow.map (fun e => (8, e.2))
  | .router _ | .other => []

end Spec
end Halo
