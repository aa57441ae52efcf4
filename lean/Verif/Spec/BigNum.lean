import Mathlib.Data.Nat.Digits.Defs
/-! # Specification of decimal text and of exact arithmetic (independent of the model) -/

namespace Spec

/-- Only ASCII digits `'0'..'9'`. -/
def IsDigits (s : List UInt8) : Prop := ∀ b ∈ s, 48 ≤ b.toNat ∧ b.toNat ≤ 57

/-- The number written in base ten, most significant digit first (0 for the empty string). -/
def digitsValue (s : List UInt8) : Nat := Nat.ofDigits 10 (s.reverse.map fun b => b.toNat - 48)

/-- `DecimalText s v`: the text `s` denotes the decimal with `v` units of `10^-18`. Either digits only, or
digits, one dot (byte 46) and at most 18 digits. -/
inductive DecimalText : List UInt8 → Nat → Prop
  | whole (p : List UInt8) : IsDigits p → DecimalText p (digitsValue p * 10 ^ 18)
  | point (p q : List UInt8) : IsDigits p → IsDigits q → q.length ≤ 18 →
      DecimalText (p ++ [46] ++ q) (digitsValue p * 10 ^ 18 + digitsValue q * 10 ^ (18 - q.length))

end Spec
