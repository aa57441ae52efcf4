import Verif.Log
import Verif.DecStr
/-! # The text of the announcements

The attributes of a response are pairs of strings. `Event` (Types) keeps their values typed; here is what is written. -/

namespace Halo

/-- A Rust string literal. -/
def asc (s : String) : Str := s.toList.map fun ch => UInt8.ofNat ch.toNat

/-- `Display for AssetInfo` (`packages/haloswap/src/asset.rs:107-114`). -/
def AssetInfo.text : AssetInfo → Str
  | .native denom => denom
  | .token contractAddr => contractAddr

/-- `Display for Asset` (`packages/haloswap/src/asset.rs:17-21`): `"{}{}"`. The amount is printed by `Display for Uint128`
(cosmwasm-std), which is that of `u128`: decimal digits without leading zeros. -/
def Asset.text (a : Asset) : Str := natToDec a.amount ++ a.info.text

/-- The attributes as written: `halo-pair/src/contract.rs:204` (liquidity token), `333-339` (deposit), `379-388` (withdrawal),
`466-476` (swap); `halo-factory/src/contract.rs:101` (configuration), `153-156` (new pair), `199-203` (native coin), `258-261`
(finished pair). -/
def Event.attributes : Event → List (Str × Str)
  | .provideLiquidity sender receiver assets share =>
    [(asc "action", asc "provide_liquidity"), (asc "sender", sender), (asc "receiver", receiver),
     (asc "assets", assets.1.text ++ asc ", " ++ assets.2.text), (asc "share", natToDec share)]
  | .withdrawLiquidity sender withdrawnShare refunds =>
    [(asc "action", asc "withdraw_liquidity"), (asc "sender", sender), (asc "withdrawn_share", natToDec withdrawnShare),
     (asc "refund_assets", refunds.1.text ++ asc ", " ++ refunds.2.text)]
  | .swap sender receiver offerAsset askAsset offerAmount returnAmount spreadAmount commissionAmount =>
    [(asc "action", asc "swap"), (asc "sender", sender), (asc "receiver", receiver), (asc "offer_asset", offerAsset.text),
     (asc "ask_asset", askAsset.text), (asc "offer_amount", natToDec offerAmount),
     (asc "return_amount", natToDec returnAmount), (asc "spread_amount", natToDec spreadAmount),
     (asc "commission_amount", natToDec commissionAmount)]
  | .liquidityToken addr => [(asc "liquidity_token_addr", addr)]
  | .updateConfig => [(asc "action", asc "update_config")]
  | .createPair assets => [(asc "action", asc "create_pair"), (asc "pair", assets.1.text ++ asc "-" ++ assets.2.text)]
  | .addNativeToken denom decimals =>
    [(asc "action", asc "add_allow_native_token"), (asc "denom", denom), (asc "decimals", natToDec decimals)]
  | .pairCreated pair lt => [(asc "pair_contract_addr", pair), (asc "liquidity_token_addr", lt)]

end Halo
