import Verif.Spec.Cw20
/-! # Specification: the book of a token over time

What calls to a token do to accounts, supply and allowances, call by call and summed up. -/

namespace Halo.Spec

/-- A call of a token: when, by whom, what. -/
structure Entry where
  block : Block
  by_ : Addr
  msg : ExecMsg

/-- The book after some calls, one after the other. -/
def Book.replay (b : Book) (l : List Entry) : Book := l.foldl (fun b e => b.after e.by_ e.msg) b

/-- What a call pays to account `a`. -/
def Entry.credits (a : Addr) (e : Entry) : Nat :=
  match e.msg with
  | .transfer dst x | .send dst x _ | .mint dst x | .transferFrom _ dst x | .sendFrom _ dst x _ => if dst = a then x else 0
  | _ => 0

/-- What it takes from account `a`. -/
def Entry.debits (a : Addr) (e : Entry) : Nat :=
  match e.msg with
  | .transfer _ x | .send _ x _ | .burn x => if e.by_ = a then x else 0
  | .transferFrom o _ x | .sendFrom o _ x _ | .burnFrom o x => if o = a then x else 0
  | _ => 0

/-- What it adds to the supply. -/
def Entry.mints (e : Entry) : Nat :=
  match e.msg with
  | .mint _ x => x
  | _ => 0

/-- What it takes from the supply. -/
def Entry.burns (e : Entry) : Nat :=
  match e.msg with
  | .burn x | .burnFrom _ x => x
  | _ => 0

/-- What it allows `sp` to take from `o` in addition. -/
def Entry.grants (o sp : Addr) (e : Entry) : Nat :=
  match e.msg with
  | .increaseAllowance s x _ => if e.by_ = o ∧ s = sp then x else 0
  | _ => 0

/-- What `sp` takes from `o`. -/
def Entry.spends (o sp : Addr) (e : Entry) : Nat :=
  match e.msg with
  | .transferFrom p _ x | .sendFrom p _ x _ | .burnFrom p x => if p = o ∧ e.by_ = sp then x else 0
  | _ => 0

/-- It lowers what `sp` may take from `o`. -/
def Entry.Revokes (o sp : Addr) (e : Entry) : Prop :=
  match e.msg with
  | .decreaseAllowance s _ _ => e.by_ = o ∧ s = sp
  | _ => False

/-- The sum over some calls. -/
def sumOf (f : Entry → Nat) (l : List Entry) : Nat := (l.map f).sum

/-- What `sp` may take from `o`. -/
def Book.allowance (b : Book) (o sp : Addr) : Nat := ((b.allow o sp).map Prod.fst).getD 0

end Halo.Spec
