import Verif.QueryCodec
import Verif.Spec.Wire
/-! # What a query looks like on the wire (specification) -/

namespace Halo.Spec

/-- The queries of each contract's interface. -/
def Asks : Kind → QueryMsg → Prop
  | .token, .balance _ | .token, .tokenInfo | .token, .minter | .token, .allowance _ _ | .token, .allAllowances _ _ _
  | .token, .allSpenderAllowances _ _ _ | .token, .allAccounts _ _ | .token, .marketingInfo | .token, .downloadLogo => True
  | .pair, .pair | .pair, .pool | .pair, .simulation _ | .pair, .reverseSimulation _ => True
  | .factory, .config | .factory, .pairOf _ | .factory, .pairs _ _ | .factory, .nativeTokenDecimals _ => True
  | .router, .config | .router, .simulateSwapOperations _ _ | .router, .reverseSimulateSwapOperations _ _ => True
  | _, _ => False

/-- The numbers of a query, each with its width in bits. -/
def queryNumbers : QueryMsg → List (Nat × Nat)
  | .allAllowances _ _ (some l) | .allSpenderAllowances _ _ (some l) | .allAccounts _ (some l) | .pairs _ (some l) => [(32, l)]
  | .simulation a | .reverseSimulation a => [(128, a.amount)]
  | .simulateSwapOperations a _ | .reverseSimulateSwapOperations a _ => [(128, a)]
  | _ => []

end Halo.Spec
