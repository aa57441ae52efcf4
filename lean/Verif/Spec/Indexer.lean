import Verif.Text
import Verif.Spec.Pool
/-! # Specification: an indexer that sees only the texts of the announcements -/

namespace Halo.Spec

/-- A decimal digit. -/
def digit (b : UInt8) : Bool := decide (48 ≤ b.toNat ∧ b.toNat ≤ 57)

/-- The number at the start of a text, in decimal. -/
def number (s : Str) : Nat := (s.takeWhile digit).foldl (fun n b => 10 * n + (b.toNat - 48)) 0

/-- What follows the number at the start of a text. -/
def afterNumber (s : Str) : Str := s.dropWhile digit

/-- The request that an announcement of a pair reports; `n0` is the name of its first asset. Two assets are written as
`12abc, 34def`. -/
def readCall (n0 : Str) (as : List (Str × Str)) : Option Call := do
  let action ← as.lookup (asc "action")
  if action = asc "swap" then
    let offer ← as.lookup (asc "offer_asset")
    let x ← as.lookup (asc "offer_amount")
    return if offer = n0 then .swap0 (number x) else .swap1 (number x)
  else if action = asc "withdraw_liquidity" then
    let x ← as.lookup (asc "withdrawn_share")
    return .withdraw (number x)
  else if action = asc "provide_liquidity" then
    let t ← as.lookup (asc "assets")
    let first := (afterNumber t).takeWhile (fun b => b ≠ 44)
    let second := ((afterNumber t).dropWhile (fun b => b ≠ 44)).drop 2
    return if first = n0 then .deposit (number t) (number second) else .deposit (number second) (number t)
  else none

end Halo.Spec
