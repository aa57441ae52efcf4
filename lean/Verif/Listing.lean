import Verif.Token
import Verif.Factory
/-!
# Listing queries of halo-token

`contracts/halo-token/src/contract.rs:73-76` hands every query to `cw20_base::contract::query` (cw20-base 1.0.0, external), which
answers the listing queries in `enumerable.rs`: `AllAccounts`, `AllAllowances`, `AllSpenderAllowances`.  Each walks a storage map in
ascending order of its raw keys, starting strictly after the key given (`Bound::ExclusiveRaw`), and returns at most 30 entries (10 by
default).

Simplification: `ALLOWANCES_SPENDER`, which cw20-base updates together with `ALLOWANCES` with the two halves of the key exchanged, is not
stored separately; the listing by spender reads `ALLOWANCES`. (`Store.lean` has both maps.)
-/

namespace Halo
namespace Token

/-- The entries of a map in the order of the storage keys. -/
def ordered {V : Type} (m : AMap Str V) : List (Str × V) := m.foldr (fun e acc => smapSet e.1 e.2 acc) []

/-- `.range(storage, start.map(Bound::ExclusiveRaw), None, Order::Ascending).take(limit)` with
`limit.unwrap_or(DEFAULT_LIMIT).min(MAX_LIMIT)` (cw20-base `enumerable.rs`). -/
def pageOf {V : Type} (l : List (Str × V)) (start : Option Str) (limit : Option Nat) : List (Str × V) :=
  (match start with
    | none => l
    | some k => l.filter fun e => bLt k e.1).take (min (limit.getD 10) 30)

/-- `query_all_accounts` (cw20-base `enumerable.rs`). -/
def queryAllAccounts (s : TokenState) (start : Option Str) (limit : Option Nat) : List Str :=
  (pageOf (ordered s.balances) start limit).map Prod.fst

/-- `ALLOWANCES.prefix(&owner)`: the spenders an owner allowed. -/
def grantsBy (s : TokenState) (owner : Addr) : AMap Addr Allowance :=
  s.allowances.filterMap fun e => if e.1.1 = owner then some (e.1.2, e.2) else none

/-- `ALLOWANCES_SPENDER.prefix(&spender)`: the owners that allowed a spender. -/
def grantsTo (s : TokenState) (spender : Addr) : AMap Addr Allowance :=
  s.allowances.filterMap fun e => if e.1.2 = spender then some (e.1.1, e.2) else none

/-- `query_owner_allowances` (cw20-base `enumerable.rs`). -/
def queryOwnerAllowances (api : Api) (s : TokenState) (owner : Str) (start : Option Str) (limit : Option Nat) :
    R (List (Str × Allowance)) := do
  let o ← api.validate owner
  return pageOf (ordered (grantsBy s o)) start limit

/-- `query_spender_allowances` (cw20-base `enumerable.rs`). -/
def querySpenderAllowances (api : Api) (s : TokenState) (spender : Str) (start : Option Str) (limit : Option Nat) :
    R (List (Str × Allowance)) := do
  let p ← api.validate spender
  return pageOf (ordered (grantsTo s p)) start limit

end Token
end Halo
