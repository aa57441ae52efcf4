import Verif.Chain
/-! # What `CreatePair` should leave behind -/

namespace Halo

/-- The decimals a factory with state `s` finds for an asset in the world `w`: its own allow-list for a native coin, the
token's metadata for a token contract (third-party token code may answer anything). -/
def DecimalsIn (c : Chain) (w : World) (s : Factory.State) : AssetInfo → Nat → Prop
  | .native d, n => AMap.get s.allow d = some n
  | .token t, n => ∃ x k, c.api.resolve t = .ok x ∧ w.contracts x = some k ∧
      ∀ ts, k.state = .token ts → n = ts.decimals

/-- What an executed `CreatePair` leaves behind: `p` and `lt` are the addresses of the two new contracts. -/
structure Created (c : Chain) (w w' : World) (a : Addr) (adm : Option Addr) (s : Factory.State)
    (as : AssetInfo × AssetInfo) (req : Requirements) (p lt : Addr) (e : PairInfoRaw) : Prop where
  raw0 : as.1.toRaw c.api = .ok e.assetInfos.1
  raw1 : as.2.toRaw c.api = .ok e.assetInfos.2
  dec0 : DecimalsIn c w s as.1 e.assetDecimals.1
  dec1 : DecimalsIn c w s as.2 e.assetDecimals.2
  req : e.requirements = req
  addr : c.api.canon p = some e.contractAddr
  lp : c.api.canon lt = some e.liquidityToken
  normal : ∃ info, e.toNormal c.api = .ok info
  fresh : w.contracts p = none ∧ w.contracts lt = none ∧ p ≠ lt
  absent : AMap.get s.pairs (Factory.pairKey e.assetInfos) = none
  fac : ∃ s', w'.contracts a = some ⟨adm, .factory s'⟩ ∧ s'.config = s.config ∧ s'.allow = s.allow ∧
    ∀ k, AMap.get s'.pairs k = if k = Factory.pairKey e.assetInfos then some e else AMap.get s.pairs k
  pair : w'.contracts p = some ⟨some a, .pair e⟩
  token : ∃ ts, w'.contracts lt = some ⟨none, .token ts⟩ ∧ ts.mint = some ⟨p, none⟩ ∧ ts.totalSupply = 0 ∧
    ts.balances = [] ∧ ts.allowances = [] ∧ ts.name = Pair.lpName ∧ ts.symbol = Pair.lpSymbol ∧ ts.decimals = 6
  rest : ∀ b, b ≠ a → b ≠ p → b ≠ lt → w'.contracts b = w.contracts b

end Halo
