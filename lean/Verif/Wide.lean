import Verif.DecStr
import Verif.Json
import Verif.Types
/-! # Wide numbers as JSON, and stored assets

The parts of `packages/bignumber/src/math.rs` and `packages/haloswap/src/asset.rs` that no message, answer or stored value of the four
contracts uses: `Serialize`/`Deserialize` for `Decimal256` and `Uint256`, `Asset::to_raw`, `AssetRaw::to_normal`. -/

namespace Halo

/-- `Serialize for Decimal256` (`math.rs:176-183`): `serialize_str(&self.to_string())`. -/
def Dec256.write (d : Nat) : Bytes := (Json.str (Dec256.toStr d)).print

/-- `Deserialize for Decimal256` (`math.rs:186-213`): a JSON string, handed to `from_str`; its errors become errors of the reader (24),
its panics stay panics. -/
def Dec256.read (b : Bytes) : R Nat :=
  match Json.parse b with
  | some (.str s) =>
    match Dec256.fromStr s with
    | .ok v => .ok v
    | .error (.panic p) => .error (.panic p)
    | .error _ => .error (.generic 24)
  | _ => .error (.generic 24)

/-- `Serialize for Uint256` (`math.rs:414-421`). -/
def Uint256.write (n : Nat) : Bytes := (Json.str (Uint256.toStr n)).print

/-- `Deserialize for Uint256` (`math.rs:424-451`): a JSON string, handed to `U256::from_dec_str`. -/
def Uint256.read (b : Bytes) : R Nat :=
  match Json.parse b with
  | some (.str s) => okOr (U256.fromDecStr s) (.generic 24)
  | _ => .error (.generic 24)

/-- `AssetRaw` (`asset.rs:184-188`). -/
structure AssetRaw where
  info : AssetInfoRaw
  amount : Nat
  deriving DecidableEq, Repr

/-- `Asset::to_raw` (`asset.rs:77-89`). -/
def Asset.toRaw (api : Api) (a : Asset) : R AssetRaw :=
  match a.info with
  | .native denom => .ok ⟨.native denom, a.amount⟩
  | .token contractAddr => do
    let c ← api.canonicalize contractAddr
    return ⟨.token c, a.amount⟩

/-- `AssetRaw::to_normal` (`asset.rs:191-203`). -/
def AssetRaw.toNormal (api : Api) (a : AssetRaw) : R Asset :=
  match a.info with
  | .native denom => .ok ⟨.native denom, a.amount⟩
  | .token contractAddr => do
    let h ← api.humanize contractAddr
    return ⟨.token h, a.amount⟩

end Halo
