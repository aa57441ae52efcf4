import Verif.Token
/-! # Specification: a cw20 token as a book of accounts

Independent of the model's functions: balances, allowances, supply and minter as functions, what each message requires, what
it changes, and whom it notifies. -/

namespace Halo.Spec

/-- The state of a token. -/
structure Book where
  supply : Nat
  /-- the minter and the cap -/
  minter : Option (Addr × Option Nat)
  bal : Addr → Nat
  /-- owner, spender: amount and expiration -/
  allow : Addr → Addr → Option (Nat × Expiration)

namespace Book
variable (b : Book)

/-- Move `x` from one account to another. -/
def move (src dst : Addr) (x : Nat) : Book :=
  { b with bal := fun a => b.bal a - (if a = src then x else 0) + (if a = dst then x else 0) }

/-- Use up `x` of an allowance. -/
def spend (o sp : Addr) (x : Nat) : Book :=
  { b with allow := fun p q => if p = o ∧ q = sp then (b.allow o sp).map fun al => (al.1 - x, al.2) else b.allow p q }

/-- Remove `x` from an account and from the supply. -/
def destroy (o : Addr) (x : Nat) : Book :=
  { b with supply := b.supply - x, bal := fun a => b.bal a - if a = o then x else 0 }

/-- `sp` may use `x` of `o`'s tokens now. -/
def Usable (expired : Expiration → Prop) (o sp : Addr) (x : Nat) : Prop :=
  ∃ al, b.allow o sp = some al ∧ ¬ expired al.2 ∧ x ≤ al.1 ∧ x ≤ b.bal o

/-- What a message of `u` requires. `valid` are the well-formed addresses; `strict` says that nothing may be granted until a moment already
past. -/
def May (valid : Addr → Prop) (expired : Expiration → Prop) (strict : Prop) (u : Addr) : ExecMsg → Prop
  | .transfer dst x => x ≠ 0 ∧ valid dst ∧ x ≤ b.bal u
  | .send dst x _ => x ≠ 0 ∧ valid dst ∧ x ≤ b.bal u
  | .burn x => x ≠ 0 ∧ x ≤ b.bal u
  | .mint dst x => x ≠ 0 ∧ valid dst ∧ b.supply + x < 2 ^ 128 ∧
      ∃ cap, b.minter = some (u, cap) ∧ ∀ k, cap = some k → b.supply + x ≤ k
  | .increaseAllowance sp x e => valid sp ∧ sp ≠ u ∧ ((b.allow u sp).map Prod.fst).getD 0 + x < 2 ^ 128 ∧
      (strict → ∀ d, e = some d → ¬ expired d)
  | .decreaseAllowance sp x e => valid sp ∧ sp ≠ u ∧
      ∃ al, b.allow u sp = some al ∧ (x < al.1 → strict → ∀ d, e = some d → ¬ expired d)
  | .transferFrom o dst x => valid o ∧ valid dst ∧ b.Usable expired o u x
  | .sendFrom o dst x _ => valid o ∧ valid dst ∧ b.Usable expired o u x
  | .burnFrom o x => valid o ∧ b.Usable expired o u x
  | .updateMinter new => (∃ cap, b.minter = some (u, cap)) ∧ ∀ a, new = some a → valid a
  | _ => False

/-- What it changes. -/
def after (u : Addr) : ExecMsg → Book
  | .transfer dst x => b.move u dst x
  | .send dst x _ => b.move u dst x
  | .burn x => b.destroy u x
  | .mint dst x => { b with supply := b.supply + x, bal := fun a => b.bal a + if a = dst then x else 0 }
  | .increaseAllowance sp x e =>
    { b with allow := fun p q =>
        if p = u ∧ q = sp then
          match b.allow u sp with
          | some al => some (al.1 + x, e.getD al.2)
          | none => some (x, e.getD .never)
        else b.allow p q }
  | .decreaseAllowance sp x e =>
    { b with allow := fun p q =>
        if p = u ∧ q = sp then (b.allow u sp).bind fun al => if x < al.1 then some (al.1 - x, e.getD al.2) else none
        else b.allow p q }
  | .transferFrom o dst x => (b.move o dst x).spend o u x
  | .sendFrom o dst x _ => (b.move o dst x).spend o u x
  | .burnFrom o x => (b.destroy o x).spend o u x
  | .updateMinter new => { b with minter := new.bind fun a => b.minter.map fun m => (a, m.2) }
  | _ => b

/-- Whom it notifies: the receiving contract is told who called, how much arrived, and the caller's message. -/
def notice (u : Addr) : ExecMsg → Option (Addr × Addr × Nat × HookMsg)
  | .send dst x h => some (dst, u, x, h)
  | .sendFrom _ dst x h => some (dst, u, x, h)
  | _ => none

end Book
end Halo.Spec
