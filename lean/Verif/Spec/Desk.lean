import Verif.Types
/-! # Specification: the administration of a factory

Independent of the model's functions: the settings as a record, what the three administration messages require, what they
change and what they order. -/

namespace Halo.Spec

/-- The settings of a factory. -/
structure Desk where
  owner : Addr
  pairCode : Nat
  tokenCode : Nat
  decimals : Denom → Option Nat

namespace Desk
variable (d : Desk)

/-- The three administration messages. -/
def Admin : ExecMsg → Prop
  | .updateConfig _ _ _ => True
  | .addNativeTokenDecimals _ _ => True
  | .migratePair _ _ => True
  | _ => False

/-- What they require of the caller `u`. `valid` are the well-formed addresses, `holds` the factory's coins. -/
def May (valid : Addr → Prop) (holds : Denom → Nat) (u : Addr) : ExecMsg → Prop
  | .updateConfig o _ _ => u = d.owner ∧ ∀ a, o = some a → valid a
  | .addNativeTokenDecimals n _ => u = d.owner ∧ 0 < holds n ∧ holds n < 2 ^ 128
  | .migratePair _ _ => u = d.owner
  | _ => False

/-- What they change. -/
def after : ExecMsg → Desk
  | .updateConfig o t p => { d with owner := o.getD d.owner, tokenCode := t.getD d.tokenCode, pairCode := p.getD d.pairCode }
  | .addNativeTokenDecimals n k => { d with decimals := fun n' => if n' = n then some k else d.decimals n' }
  | _ => d

/-- What they order: the migration of a contract, by default to the current pair code. -/
def orders : ExecMsg → Option (Addr × Nat)
  | .migratePair a k => some (a, k.getD d.pairCode)
  | _ => none

/-- What they announce. -/
def says : ExecMsg → List Event
  | .updateConfig _ _ _ => [.updateConfig]
  | .addNativeTokenDecimals n k => [.addNativeToken n k]
  | _ => []

end Desk
end Halo.Spec
