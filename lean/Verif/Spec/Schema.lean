import Verif.Json
/-! # The published schemas

What the three JSON schemas in `packages/haloswap/schema` demand of a value (JSON Schema, draft 7, validation). A schema is taken as the
set of the values that conform to it; references are replaced by what they refer to, and annotations (`$schema`, `title`,
`description`) left out, since they demand nothing. -/

namespace Halo
namespace Spec

/-- A schema: which values conform to it. -/
abbrev Schema := Json → Prop

namespace Schema

/-- `"type": "string"`. -/
def string : Schema := fun j => ∃ s, j = .str s

/-- `"type": "array"` with `items`, `minItems` and `maxItems`. -/
def array (items : Schema) (least most : Nat) : Schema :=
  fun j => ∃ l, j = .arr l ∧ least ≤ l.toList.length ∧ l.toList.length ≤ most ∧ ∀ v ∈ l.toList, items v

/-- `"type": "object"` with `required` and `properties`; a property that is there conforms to its schema, others are free. -/
def object (required : List Str) (properties : List (Str × Schema)) : Schema :=
  fun j => ∃ m, j = .obj m ∧ (∀ k ∈ required, ∃ v, (k, v) ∈ m.toList) ∧
    ∀ p ∈ properties, ∀ v, (p.1, v) ∈ m.toList → p.2 v

/-- The same with `"additionalProperties": false`: there are no other properties. -/
def closed (required : List Str) (properties : List (Str × Schema)) : Schema :=
  fun j => object required properties j ∧ ∀ m, j = .obj m → ∀ p ∈ m.toList, p.1 ∈ properties.map Prod.fst

/-- `anyOf`. -/
def anyOf (l : List Schema) : Schema := fun j => ∃ S ∈ l, S j

/-- `packages/haloswap/schema/asset_info.json`. -/
def assetInfo : Schema :=
  anyOf
    [closed [asc "token"] [(asc "token", object [asc "contract_addr"] [(asc "contract_addr", string)])],
      closed [asc "native_token"] [(asc "native_token", object [asc "denom"] [(asc "denom", string)])]]

/-- `packages/haloswap/schema/asset.json`. -/
def asset : Schema := object [asc "amount", asc "info"] [(asc "amount", string), (asc "info", assetInfo)]

/-- `packages/haloswap/schema/pair_info.json`. -/
def pairInfo : Schema :=
  object [asc "asset_infos", asc "contract_addr", asc "liquidity_token"]
    [(asc "asset_infos", array assetInfo 2 2), (asc "contract_addr", string), (asc "liquidity_token", string)]

end Schema

/-- An object whose members are among the named ones. -/
def Only (names : List Str) (j : Json) : Prop := ∀ m, j = .obj m → ∀ p ∈ m.toList, p.1 ∈ names

end Spec
end Halo
