import Verif.Chain
/-! # Specification: what a contract may give away -/

namespace Halo

/-- The assets a contract may give away of its own doing: a pair its two assets and (to burn them) its LP tokens, a
token contract or a factory nothing; no claim is made for routers and foreign code. -/
def CanSpend (c : Chain) : CState → AssetInfo → Prop
  | .token _, _ => False
  | .factory _, _ => False
  | .pair s, .native d => s.assetInfos.1 = .native d ∨ s.assetInfos.2 = .native d
  | .pair s, .token t => ∃ b, (s.assetInfos.1 = .token b ∨ s.assetInfos.2 = .token b ∨ s.liquidityToken = b) ∧
      c.api.human b = some t
  | .router _, _ => True
  | .other, _ => True

end Halo
