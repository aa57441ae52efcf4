import Verif.Num
/-!
# Printing and parsing of decimals, at byte level

`packages/bignumber/src/math.rs`: `FromStr for Decimal256` (76-112), `Display for Decimal256` (114-132),
`From<Decimal> for Decimal256` (61-65), `From<Decimal256> for Decimal` (67-74),
`FromStr`/`Display`/`TryFrom<&str>` for `Uint256` (271-290, 316-320).
JSON (de)serialization of both types is exactly these string conversions (175-213, 413-451).
-/

namespace Halo

/-- ASCII `'0'`. -/
def chr0 : UInt8 := 48
/-- ASCII `'9'`. -/
def chr9 : UInt8 := 57
/-- ASCII `'.'`. -/
def chrDot : UInt8 := 46

/-- `b >= 48 && b <= 57`. -/
def isDigit (b : UInt8) : Bool := decide (chr0 ≤ b) && decide (b ≤ chr9)

/-- The loop of `U256::from_dec_str` (crate bigint): fold digits, error as soon as 256 bits overflow. -/
def fromDecLoop (bound : Nat) : Nat → Str → Option Nat
  | acc, [] => some acc
  | acc, b :: t =>
    if acc * 10 < bound ∧ acc * 10 + (b.toNat - 48) < bound then
      fromDecLoop bound (acc * 10 + (b.toNat - 48)) t
    else none

/-- `U256::from_dec_str` (crate bigint 4.4.3): every byte must be a digit, the empty string is 0
(cf. test `math.rs:521`), an error when the value needs more than 256 bits. -/
def U256.fromDecStr (s : Str) : Option Nat :=
  if s.all isDigit then fromDecLoop B256 0 s else none

/-- `str::split('.')`: always returns at least one part. -/
def splitDots : Str → List Str
  | [] => [[]]
  | b :: t =>
    if b = chrDot then [] :: splitDots t
    else match splitDots t with
      | [] => [[b]]
      | p :: ps => (b :: p) :: ps

/-- `FromStr for Decimal256` (`math.rs:76-112`). Error numbers: 1 "Error parsing whole",
2 "Error parsing fractional", 3 "Cannot parse more than 18 fractional digits",
4 "Unexpected number of dots". -/
def Dec256.fromStr (input : Str) : R Nat :=
  match splitDots input with
  | [p] => do
    let whole ← okOr (U256.fromDecStr p) (.generic 1)
    U256.mul whole DF
  | [p, q] => do
    let whole ← okOr (U256.fromDecStr p) (.generic 1)
    let fractional ← okOr (U256.fromDecStr q) (.generic 2)
    require (q.length ≤ 18) (.generic 3)
    let exp := 18 - q.length
    let fractionalFactor := 10 ^ exp
    let wholeAsAtomics ← U256.mul whole DF
    let f ← U256.mul fractional fractionalFactor
    U256.add wholeAsAtomics f
  | _ => .error (.generic 4)

/-- `Display for U256` (crate bigint): decimal digits, most significant first, `"0"` for zero. -/
def natToDec (n : Nat) : Str :=
  if _h : n < 10 then [chr0 + UInt8.ofNat n]
  else natToDec (n / 10) ++ [chr0 + UInt8.ofNat (n % 10)]
termination_by n
decreasing_by omega

/-- `str::trim_end_matches('0')`. -/
def trimEndZeros (s : Str) : Str := (s.reverse.dropWhile (· == chr0)).reverse

/-- `Display for Decimal256` (`math.rs:114-132`). `18 - len` cannot underflow since the
fractional part has at most 18 digits. -/
def Dec256.toStr (d : Nat) : Str :=
  let whole := d / DF
  let fractional := d % DF
  if fractional = 0 then natToDec whole
  else
    let fs := natToDec fractional
    let fs := List.replicate (18 - fs.length) chr0 ++ fs
    natToDec whole ++ [chrDot] ++ trimEndZeros fs

/-- `FromStr for Uint256` (`math.rs:282-290`), `TryFrom<&str>` (`math.rs:271-280`). -/
def Uint256.fromStr (s : Str) : R Nat := okOr (U256.fromDecStr s) (.generic 5)

/-- `Display for Uint256` (`math.rs:316-320`), `From<Uint256> for String` (`math.rs:292-296`). -/
def Uint256.toStr (n : Nat) : Str := natToDec n

/-- `cosmwasm_std::Decimal`'s `Display` (external, 1.1.8): the same format as `Dec256.toStr`. -/
def Decimal.toStr (d : Nat) : Str :=
  let whole := d / DF
  let fractional := d % DF
  if fractional = 0 then natToDec whole
  else
    let fs := natToDec fractional
    let fs := List.replicate (18 - fs.length) chr0 ++ fs
    natToDec whole ++ [chrDot] ++ trimEndZeros fs

/-- `str::parse::<u128>()` skips one leading `+`. -/
def dropPlus : Str → Str
  | [] => []
  | b :: t => if b = 43 then t else b :: t

/-- `"..".parse::<Uint128>()` (external), which is that of `u128`: a non-empty digit string below `2^128`, possibly after a `+`. -/
def Uint128.fromDecStr (s : Str) : Option Nat :=
  if (dropPlus s).all isDigit ∧ dropPlus s ≠ [] then fromDecLoop B128 0 (dropPlus s) else none

/-- `cosmwasm_std::Decimal::from_str` (external, 1.1.8). -/
def Decimal.fromStr (input : Str) : R Nat :=
  match splitDots input with
  | [p] => do
    let whole ← okOr (Uint128.fromDecStr p) (.generic 1)
    let a ← Uint128.checkedMul whole DF
    return a
  | [p, q] => do
    let whole ← okOr (Uint128.fromDecStr p) (.generic 1)
    let a ← Uint128.checkedMul whole DF
    let fractional ← okOr (Uint128.fromDecStr q) (.generic 2)
    require (q.length ≤ 18) (.generic 3)
    let f ← Uint128.mulChk fractional (10 ^ (18 - q.length))
    require (a + f < B128) .overflowErr
    return a + f
  | _ => .error (.generic 4)

/-- `From<Decimal> for Decimal256` (`math.rs:61-65`): print, parse, `unwrap`. -/
def Dec256.ofDecimal (d : Nat) : R Nat :=
  match Dec256.fromStr (Decimal.toStr d) with
  | .ok v => .ok v
  | .error (.panic p) => .error (.panic p)
  | .error _ => .error (.panic .unwrap)

/-- `From<Decimal256> for Decimal` (`math.rs:67-74`). -/
def Dec256.toDecimal (n : Nat) : R Nat := do
  require (U256.limb n 2 = 0) (.panic .convOverflow)
  require (U256.limb n 3 = 0) (.panic .convOverflow)
  match Decimal.fromStr (Dec256.toStr n) with
  | .ok v => .ok v
  | .error (.panic p) => .error (.panic p)
  | .error _ => .error (.panic .unwrap)

end Halo
