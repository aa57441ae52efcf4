import Verif.Base
import Mathlib.Data.Nat.Sqrt
/-!
# Numbers: `bignumber` and the cosmwasm integer/decimal operations

`Uint256` and `Decimal256` values are represented by the natural number held in their `U256`
(`packages/bignumber/src/math.rs:14,217`).  `U256` is the external crate `bigint` 4.4.3, whose `+`, `*`
panic with "arithmetic operation overflow" (`math.rs:664-683` rely on it) and whose `/` is floor division.
-/

namespace Halo

/-- `2^64`: exclusive bound of `u64`. -/
abbrev B64 : Nat := 2 ^ 64
/-- `2^128`: exclusive bound of `Uint128`/`u128`. -/
abbrev B128 : Nat := 2 ^ 128
/-- `2^256`: exclusive bound of `U256`. -/
abbrev B256 : Nat := 2 ^ 256

/-- `DECIMAL_FRACTIONAL` (`packages/bignumber/src/math.rs:18`), also `cosmwasm_std::Decimal`'s. -/
def DF : Nat := 1000000000000000000

/-! ## bigint `U256` -/
namespace U256

/-- `U256 + U256` (crate bigint; panics on overflow, cf. `math.rs:664-683`). -/
def add (a b : Nat) : R Nat := if a + b < B256 then .ok (a + b) else .error (.panic .overflow)

/-- `U256 * U256` (crate bigint; panics on overflow). -/
def mul (a b : Nat) : R Nat := if a * b < B256 then .ok (a * b) else .error (.panic .overflow)

/-- `U256 / U256` (crate bigint; floor division, panics on a zero divisor). -/
def div (a b : Nat) : R Nat := if b = 0 then .error (.panic .divByZero) else .ok (a / b)

/-- `U256([l0, l1, l2, l3])`: the value of four 64-bit limbs, least significant first. -/
def ofLimbs (l0 l1 l2 l3 : Nat) : Nat := l0 + l1 * 2 ^ 64 + l2 * 2 ^ 128 + l3 * 2 ^ 192

/-- Limb `i` of a `U256` (`let U256(ref arr) = n.0; arr[i]`). -/
def limb (n i : Nat) : Nat := n / 2 ^ (64 * i) % 2 ^ 64

end U256

/-! ## `Uint256` -/
namespace Uint256

/-- `Uint256::zero` (`math.rs:221-223`). -/
def zero : Nat := 0
/-- `Uint256::one` (`math.rs:226-228`). -/
def one : Nat := 1

/-- `split_u128` (`math.rs:247-250`): `((a >> 64), (a & 0xFFFFFFFFFFFFFFFF))`. -/
def splitU128 (a : Nat) : Nat × Nat := (a >>> 64, a &&& 0xFFFFFFFFFFFFFFFF)

/-- `From<u128> for Uint256` (`math.rs:258-263`) and `From<Uint128>` (`math.rs:252-256`). -/
def ofU128 (val : Nat) : Nat :=
  let (hi, low) := splitU128 val
  U256.ofLimbs low hi 0 0

/-- `From<Uint256> for u128` (`math.rs:298-307`) and for `Uint128` (`math.rs:309-314`). -/
def toU128 (n : Nat) : R Nat := do
  require (U256.limb n 2 = 0) (.panic .convOverflow)
  require (U256.limb n 3 = 0) (.panic .convOverflow)
  let hi := U256.limb n 1
  let low := U256.limb n 0
  return (hi <<< 64) + low

/-- `impl Add for Uint256` (`math.rs:322-328`), also `AddAssign` (`math.rs:330-334`). -/
def add (a b : Nat) : R Nat := U256.add a b

/-- `impl Sub for Uint256` (`math.rs:336-343`): `assert!(self.0 >= rhs.0)`. -/
def sub (a b : Nat) : R Nat := do
  require (a ≥ b) (.panic .subUnderflow)
  return a - b

/-- `impl Mul<Uint256> for Uint256` (`math.rs:345-357`). -/
def mul (a b : Nat) : R Nat :=
  if a = 0 ∨ b = 0 then .ok zero else U256.mul a b

/-- `Uint256::multiply_ratio` (`math.rs:398-411`). -/
def multiplyRatio (a nom denom : Nat) : R Nat := do
  require (denom ≠ 0) (.panic .divByZero)
  let p ← U256.mul a nom
  U256.div p denom

/-- `impl Mul<Decimal256> for Uint256` (`math.rs:362-374`) and `Mul<Uint256> for Decimal256`
(`math.rs:390-396`). -/
def mulDec (a d : Nat) : R Nat :=
  if a = 0 ∨ d = 0 then .ok zero else multiplyRatio a d DF

/-- `impl Div<Decimal256> for Uint256` (`math.rs:376-388`). -/
def divDec (a d : Nat) : R Nat := do
  require (d ≠ 0) (.panic .divByZero)
  if a = 0 then return zero else multiplyRatio a DF d

end Uint256

/-! ## `Decimal256` -/
namespace Dec256

/-- `Decimal256::one` (`math.rs:21-23`). -/
def one : Nat := DF
/-- `Decimal256::zero` (`math.rs:26-28`). -/
def zero : Nat := 0

/-- `Decimal256::percent` (`math.rs:31-33`). -/
def percent (x : Nat) : R Nat := U256.mul x 10000000000000000
/-- `Decimal256::permille` (`math.rs:36-38`). -/
def permille (x : Nat) : R Nat := U256.mul x 1000000000000000

/-- `Decimal256::from_ratio` (`math.rs:41-49`). -/
def fromRatio (nominator denominator : Nat) : R Nat := do
  require (denominator ≠ 0) (.panic .divByZero)
  let p ← U256.mul nominator DF
  U256.div p denominator

/-- `Decimal256::from_uint256` (`math.rs:51-54`). -/
def fromUint256 (v : Nat) : R Nat := U256.mul v DF

/-- `impl Add for Decimal256` (`math.rs:134-140`), also `AddAssign` (`math.rs:142-146`). -/
def add (a b : Nat) : R Nat := U256.add a b

/-- `impl Sub for Decimal256` (`math.rs:148-155`). -/
def sub (a b : Nat) : R Nat := do
  require (a ≥ b) (.panic .subUnderflow)
  return a - b

/-- `impl Mul for Decimal256` (`math.rs:157-163`). -/
def mul (a b : Nat) : R Nat := do
  let p ← U256.mul a b
  U256.div p DF

/-- `impl Div for Decimal256` (`math.rs:165-173`). -/
def div (a b : Nat) : R Nat := do
  require (b ≠ 0) (.panic .divByZero)
  let p ← U256.mul a DF
  U256.div p b

end Dec256

/-! ## cosmwasm_std `Uint128` and `Decimal` (external crate, version 1.1.8) -/
namespace Uint128

/-- `u128 * u128` with `overflow-checks = true` (`/repo/Cargo.toml` `[profile.release]`). -/
def mulChk (a b : Nat) : R Nat := if a * b < B128 then .ok (a * b) else .error (.panic .overflow)

/-- `Uint128::checked_sub`. -/
def checkedSub (a b : Nat) : R Nat := if b ≤ a then .ok (a - b) else .error .overflowErr

/-- `Uint128::checked_mul`. -/
def checkedMul (a b : Nat) : R Nat := if a * b < B128 then .ok (a * b) else .error .overflowErr

/-- `Uint128 + Uint128`: panics on overflow. -/
def add (a b : Nat) : R Nat := if a + b < B128 then .ok (a + b) else .error (.panic .overflow)

/-- `Uint128::multiply_ratio`: full 256-bit product, floor division, panics on a zero denominator or
if the result exceeds 128 bits. -/
def multiplyRatio (a nom denom : Nat) : R Nat :=
  if denom = 0 then .error (.panic .divByZero)
  else if a * nom / denom < B128 then .ok (a * nom / denom)
  else .error (.panic .overflow)

/-- `Decimal::from_ratio(a, b)` = `a.multiply_ratio(10^18, b)` atomics. -/
def decFromRatio (a b : Nat) : R Nat := multiplyRatio a DF b

/-- `Uint128 * Decimal`. -/
def mulDecimal (a d : Nat) : R Nat :=
  if a = 0 ∨ d = 0 then .ok 0 else multiplyRatio a d DF

/-- `10u64.pow(e)` with overflow checks. -/
def pow10u64 (e : Nat) : R Nat := if 10 ^ e < B64 then .ok (10 ^ e) else .error (.panic .overflow)

/-- `integer_sqrt` of a `u128` (crate integer-sqrt): the floor square root. -/
def isqrt (n : Nat) : Nat := Nat.sqrt n

end Uint128
end Halo
