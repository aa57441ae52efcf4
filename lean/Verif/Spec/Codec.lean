import Verif.Codec
import Verif.Spec.Wire
/-! # Messages that can be on the wire (for C83) -/

namespace Halo
namespace Spec

/-- The payload of a message. -/
def payloadOf : ExecMsg → Option HookMsg
  | .send _ _ h | .sendFrom _ _ _ h | .receive _ _ h => some h
  | _ => none

/-- Every number anywhere in a message. -/
def wireNumbers (m : ExecMsg) : List (Nat × Nat) :=
  execNumbers m ++ (payloadOf m).toList.flatMap hookNumbers ++ (expiryOf m).toList.flatMap expiryNumbers

/-- No contract can read these bytes as a payload. -/
def OpaquePayload (b : Bytes) : Prop := readPairHook b = none ∧ readRouterHook b = none

/-- No contract can read these bytes as an execute message, and they are not the pair's `Swap` payload. -/
def Opaque (b : Bytes) : Prop := (∀ k, readExec k b = none) ∧ ∀ p s t, readPairHook b ≠ some (.swap p s t)

/-- A message that can be on the wire: its numbers fit their types, and what is given as mere bytes is no message. -/
structure WellFormed (m : ExecMsg) : Prop where
  fits : FitsAll (wireNumbers m)
  payload : ∀ b, payloadOf m = some (.raw b) → OpaquePayload b
  raw : ∀ b, m = .raw b → Opaque b

/-- The same for instantiate messages. -/
structure WellFormedInst (m : InstMsg) : Prop where
  fits : FitsAll (instNumbers m)
  raw : ∀ b, m = .raw b → ∀ k, readInst k b = none

/-- The part of a message that a contract will have to read can be on the wire. -/
def OnWire : CosmosMsg → Prop
  | .exec _ m _ => WellFormed m
  | .inst _ _ m _ => WellFormedInst m
  | _ => True

/-- The messages in a contract's interface (`packages/haloswap/src/{pair,factory,router}.rs`, cw20 `Cw20ExecuteMsg`). -/
def InInterface : Kind → ExecMsg → Prop
  | .token, .transfer _ _ | .token, .burn _ | .token, .send _ _ _ | .token, .increaseAllowance _ _ _
  | .token, .decreaseAllowance _ _ _ | .token, .transferFrom _ _ _ | .token, .sendFrom _ _ _ _ | .token, .burnFrom _ _
  | .token, .mint _ _ | .token, .updateMinter _ | .token, .marketing => True
  | .pair, .receive _ _ _ | .pair, .provideLiquidity _ _ _ => True
  | .router, .receive _ _ _ | .router, .executeSwapOperations _ _ _ | .router, .executeSwapOperation _ _
  | .router, .assertMinimumReceive _ _ _ _ => True
  | .factory, .updateConfig _ _ _ | .factory, .createPair _ _ | .factory, .addNativeTokenDecimals _ _
  | .factory, .migratePair _ _ => True
  | _, _ => False

end Spec
end Halo
