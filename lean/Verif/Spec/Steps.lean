import Verif.Lemmas.TraceL
/-!
# How many steps a request can take (specification side of C80)

A step is one message or one reply being handed to a contract or to the bank.  The numbers below depend only on the text of the
request, never on the state of the chain.
-/

namespace Halo
namespace Spec

/-- Steps that follow the delivery of a cw20 hook message. -/
def hookSteps : HookMsg → Nat
  | .swap _ _ _ => 1
  | .withdrawLiquidity => 3
  | .executeSwapOperations ops mn _ => 4 * ops.length + if mn.isSome then 1 else 0
  | .raw _ => 0

/-- Steps a call can take, itself included. -/
def execSteps : ExecMsg → Nat
  | .send _ _ m => 2 + hookSteps m
  | .sendFrom _ _ _ m => 2 + hookSteps m
  | .receive _ _ m => 1 + hookSteps m
  | .provideLiquidity _ _ _ => 4
  | .executeSwapOperations ops mn _ => 1 + 4 * ops.length + if mn.isSome then 1 else 0
  | .executeSwapOperation _ _ => 4
  | .createPair _ _ => 5
  | .migratePair _ _ => 2
  | _ => 1

/-- Steps a message can take, itself included. -/
def msgSteps : CosmosMsg → Nat
  | .exec _ m _ => execSteps m
  | .inst _ _ (.pair _ _ _ _) _ => 3
  | _ => 1

/-- Steps a frame can take: a message that asks for a reply leaves one more step behind. -/
def frameSteps : Frame → Nat
  | .msg _ ⟨m, id⟩ => msgSteps m + if id.isSome then 1 else 0
  | .reply _ _ _ => 1

/-- The frame hands control to code that is not one of the four contracts. -/
def RunsForeign (c : Chain) (w : World) : Frame → Prop
  | .msg _ ⟨.exec t _ _, _⟩ => ∃ a adm, c.api.resolve t = .ok a ∧ w.contracts a = some ⟨adm, .other⟩
  | .msg _ ⟨.inst _ code _ _, _⟩ => c.codes code = some .other
  | .msg _ _ => False
  | .reply a _ _ => ∃ adm, w.contracts a = some ⟨adm, .other⟩

end Spec
end Halo
