import Verif.Chain
/-! # A factory's books, kept from the outside (C100)

Written from the messages alone: who created the factory, what its owners told it, which pairs were asked for and which
contracts came of that. No function of the factory is used. -/

namespace Halo.Spec

/-- A listed pair: its two assets as stored, the decimals of those that are native coins, and its address. -/
structure Listed where
  assets : AssetInfoRaw × AssetInfoRaw
  decimals : Option Nat × Option Nat
  address : Option Bytes

/-- The bytes of a stored asset. -/
def rawBytes : AssetInfoRaw → Bytes
  | .token b => b
  | .native d => d

/-- The key of two assets: their bytes one after the other, the smaller first. -/
def listKey (as : AssetInfoRaw × AssetInfoRaw) : Bytes :=
  if bLt (rawBytes as.2) (rawBytes as.1) then rawBytes as.2 ++ rawBytes as.1 else rawBytes as.1 ++ rawBytes as.2

/-- The books of a factory. -/
structure Books where
  owner : Option Bytes
  pairCode : Nat
  tokenCode : Nat
  decimals : Denom → Option Nat
  asked : Option (AssetInfoRaw × AssetInfoRaw)
  askedDecimals : Option Nat × Option Nat
  listed : Bytes → Option Listed

/-- An asset as it is stored: tokens by the canonical form of their address. -/
def rawAsset (c : Chain) : AssetInfo → Option AssetInfoRaw
  | .native d => some (.native d)
  | .token t => (c.api.canon t).map .token

/-- The decimals of a native coin according to the books. -/
def Books.decimalsOf (b : Books) : AssetInfo → Option Nat
  | .native d => b.decimals d
  | .token _ => none

/-- What a message to the factory does to its books. -/
def Books.called (c : Chain) (b : Books) : ExecMsg → Books
  | .updateConfig o t p =>
    { b with owner := match o with | none => b.owner | some o => c.api.canon o
             tokenCode := t.getD b.tokenCode
             pairCode := p.getD b.pairCode }
  | .addNativeTokenDecimals d n => { b with decimals := fun d' => if d' = d then some n else b.decimals d' }
  | .createPair as _ =>
    { b with asked := (rawAsset c as.1).bind fun x => (rawAsset c as.2).map fun y => (x, y)
             askedDecimals := (b.decimalsOf as.1, b.decimalsOf as.2) }
  | _ => b

/-- The contract that was asked for last has been created. -/
def Books.created (c : Chain) (b : Books) (p : Addr) : Books :=
  match b.asked with
  | none => b
  | some as => { b with listed := fun k => if k = listKey as then some ⟨as, b.askedDecimals, c.api.canon p⟩ else b.listed k }

/-- What an executed frame does to the books of the factory at `a`. -/
def keep (c : Chain) (a : Addr) (b : Option Books) (e : World × Frame) : Option Books :=
  match e.2 with
  | .msg _ ⟨.exec t m _, _⟩ => if c.api.resolve t = .ok a then b.map (·.called c m) else b
  | .msg s ⟨.inst _ code (.factory pc tc) _, _⟩ =>
    if c.addrOf e.1.next = a ∧ c.codes code = some .factory then
      some { owner := c.api.canon s, pairCode := pc, tokenCode := tc, decimals := fun _ => none, asked := none,
             askedDecimals := (none, none), listed := fun _ => none }
    else b
  | .reply a' _ (some p) => if a' = a then b.map (·.created c p) else b
  | _ => b

/-- The books of the factory at `a` after a history from the start of the chain. -/
def books (c : Chain) (a : Addr) (tr : List (World × Frame)) : Option Books := tr.foldl (keep c a) none

end Halo.Spec
