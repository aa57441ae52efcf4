import Verif.Types
/-! # Specification: reading printed announcements

Independent of the model's functions. -/

namespace Halo.Spec

/-- The name of an asset, without telling whether it is a coin or a token. -/
def nameOf : AssetInfo → Str
  | .native d => d
  | .token a => a

/-- A name that can be read after a number and before a comma: it does not begin with a digit and contains no comma. All
denominations of the Cosmos SDK (`[a-zA-Z][a-zA-Z0-9/:._-]*`) and all bech32 addresses are such. -/
def Clear (n : Str) : Prop := (∀ b ∈ n.head?, ¬ (48 ≤ b.toNat ∧ b.toNat ≤ 57)) ∧ (44 : UInt8) ∉ n

/-- The names inside composed texts can be read. The announcement of a new pair separates the names by a dash, so the first one
must not contain any (denominations may). -/
def Readable : Event → Prop
  | .provideLiquidity _ _ as _ => Clear (nameOf as.1.info) ∧ Clear (nameOf as.2.info)
  | .withdrawLiquidity _ _ as => Clear (nameOf as.1.info) ∧ Clear (nameOf as.2.info)
  | .createPair is => (45 : UInt8) ∉ nameOf is.1
  | _ => True

/-- The same name and amount. -/
def SameAsset (a b : Asset) : Prop := nameOf a.info = nameOf b.info ∧ a.amount = b.amount

/-- Two announcements say the same, except that one may name a coin where the other names a token of the same name. -/
inductive SaysSame : Event → Event → Prop
  | provide {s r as as' n} : SameAsset as.1 as'.1 → SameAsset as.2 as'.2 →
      SaysSame (.provideLiquidity s r as n) (.provideLiquidity s r as' n)
  | withdraw {s as as' n} : SameAsset as.1 as'.1 → SameAsset as.2 as'.2 →
      SaysSame (.withdrawLiquidity s n as) (.withdrawLiquidity s n as')
  | swap {s r o o' a a' x y z u} : nameOf o = nameOf o' → nameOf a = nameOf a' →
      SaysSame (.swap s r o a x y z u) (.swap s r o' a' x y z u)
  | liquidityToken {t} : SaysSame (.liquidityToken t) (.liquidityToken t)
  | updateConfig : SaysSame .updateConfig .updateConfig
  | createPair {is is'} : nameOf is.1 = nameOf is'.1 → nameOf is.2 = nameOf is'.2 →
      SaysSame (.createPair is) (.createPair is')
  | addNativeToken {d n} : SaysSame (.addNativeToken d n) (.addNativeToken d n)
  | pairCreated {p l} : SaysSame (.pairCreated p l) (.pairCreated p l)

end Halo.Spec
