import Verif.Spec.Indexer
/-! # Specification: an indexer that sees only the texts that a token announces

It knows nothing about messages. `from` and `to` say whose balance goes down and up by `amount`; if only one of them is there, the
supply changes; `by` says whose allowance is used; three actions change allowances and the minter. -/

namespace Halo.Spec

/-- What the indexer knows about a token. -/
structure Known20 where
  bal : Str → Nat
  supply : Nat
  /-- owner, spender -/
  allow : Str → Str → Nat
  minter : Option Str

/-- `x` if the announcement says that `key` is `v`. -/
def when (as : List (Str × Str)) (key : String) (v : Str) (x : Nat) : Nat :=
  if as.lookup (asc key) = some v then x else 0

/-- The amount announced. -/
def amountOf (as : List (Str × Str)) : Nat := number ((as.lookup (asc "amount")).getD [])

/-- What the indexer knows after reading one announcement. -/
def Known20.read (b : Known20) (as : List (Str × Str)) : Known20 where
  bal a := b.bal a - when as "from" a (amountOf as) + when as "to" a (amountOf as)
  supply := b.supply + (if (as.lookup (asc "to")).isSome then amountOf as else 0)
    - (if (as.lookup (asc "from")).isSome then amountOf as else 0)
  allow o s := b.allow o s + when as "action" (asc "increase_allowance") (when as "owner" o (when as "spender" s (amountOf as)))
    - when as "action" (asc "decrease_allowance") (when as "owner" o (when as "spender" s (amountOf as)))
    - when as "from" o (when as "by" s (amountOf as))
  minter :=
    if as.lookup (asc "action") = some (asc "update_minter") then
      match as.lookup (asc "new_minter") with
      | some m => if m = asc "None" then none else some m
      | none => b.minter
    else b.minter

/-- After reading several, one by one. -/
def Known20.readAll (b : Known20) (l : List (List (Str × Str))) : Known20 := l.foldl Known20.read b

/-- The tokens an announcement says were created: credited to somebody and debited to nobody. -/
def made (as : List (Str × Str)) : Nat :=
  if (as.lookup (asc "to")).isSome ∧ as.lookup (asc "from") = none then amountOf as else 0

/-- Who asked for what is announced: `by` if it is there, otherwise `owner`, otherwise `from`. -/
def asker (as : List (Str × Str)) : Option Str :=
  ((as.lookup (asc "by")).or (as.lookup (asc "owner"))).or (as.lookup (asc "from"))

/-- The tokens an announcement says were destroyed at the request of `p`: debited to somebody and credited to nobody. -/
def unmade (p : Str) (as : List (Str × Str)) : Nat :=
  if (as.lookup (asc "from")).isSome ∧ as.lookup (asc "to") = none ∧ asker as = some p then amountOf as else 0

end Halo.Spec
