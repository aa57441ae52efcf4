import Verif.Json
/-! # The grammar of JSON texts

Independent of the reader: which bytes are a text of which value. -/

namespace Halo
namespace Spec

/-- White space: space, line feed, tab, carriage return, in any number. -/
def White (w : Bytes) : Prop := ∀ b ∈ w, b = 32 ∨ b = 10 ∨ b = 9 ∨ b = 13

/-- A hexadecimal digit, in either case. -/
def HexDigit (b : UInt8) (n : Nat) : Prop := n < 16 ∧ ((asc "0123456789abcdef")[n]? = some b ∨ (asc "0123456789ABCDEF")[n]? = some b)

/-- Four hexadecimal digits, the most significant first. -/
def HexNumber (a b c d : UInt8) (n : Nat) : Prop :=
  ∃ w x y z, HexDigit a w ∧ HexDigit b x ∧ HexDigit c y ∧ HexDigit d z ∧ n = 4096 * w + 256 * x + 16 * y + z

/-- The letters that follow a backslash and what they stand for. -/
def escapes : List (UInt8 × UInt8) := [(34, 34), (92, 92), (47, 47), (98, 8), (102, 12), (110, 10), (114, 13), (116, 9)]

/-- The UTF-8 encoding of a character of the basic plane or beyond. -/
def encoded (n : Nat) : Bytes := String.utf8EncodeChar (Char.ofNat n)

/-- What stands between the quotes of a string. -/
inductive StringText : Bytes → Str → Prop
  | nil : StringText [] []
  | plain (b : UInt8) (t s : Bytes) (h : b ≠ 34 ∧ b ≠ 92) (ht : StringText t s) : StringText (b :: t) (b :: s)
  | escape (e x : UInt8) (t s : Bytes) (h : (e, x) ∈ escapes) (ht : StringText t s) : StringText (92 :: e :: t) (x :: s)
  | unicode (a b c d : UInt8) (u : Nat) (t s : Bytes) (h : HexNumber a b c d u) (hu : ¬ (0xD800 ≤ u ∧ u < 0xE000)) (ht : StringText t s) :
      StringText (92 :: 117 :: a :: b :: c :: d :: t) (encoded u ++ s)
  | surrogates (a b c d a' b' c' d' : UInt8) (hi lo : Nat) (t s : Bytes) (h : HexNumber a b c d hi) (h' : HexNumber a' b' c' d' lo)
      (h1 : 0xD800 ≤ hi ∧ hi < 0xDC00) (h2 : 0xDC00 ≤ lo ∧ lo < 0xE000) (ht : StringText t s) :
      StringText (92 :: 117 :: a :: b :: c :: d :: 92 :: 117 :: a' :: b' :: c' :: d' :: t)
        (encoded (0x10000 + (hi - 0xD800) * 1024 + (lo - 0xDC00)) ++ s)

mutual
/-- A value, without white space around it. -/
inductive ValueText : Bytes → Json → Prop
  | null : ValueText (asc "null") .null
  | true : ValueText (asc "true") (.bool true)
  | false : ValueText (asc "false") (.bool false)
  | num (n : Nat) : ValueText (natToDec n) (.num n)
  | str (t s : Bytes) (h : StringText t s) : ValueText ([34] ++ t ++ [34]) (.str s)
  | empty (w : Bytes) (h : White w) : ValueText ([91] ++ w ++ [93]) (.arr .nil)
  | arr (t : Bytes) (l : Items) (h : ItemsText t l) : ValueText ([91] ++ t ++ [93]) (.arr l)
  | bare (w : Bytes) (h : White w) : ValueText ([123] ++ w ++ [125]) (.obj .nil)
  | obj (t : Bytes) (l : Members) (h : MembersText t l) : ValueText ([123] ++ t ++ [125]) (.obj l)
/-- One or more elements, separated by commas. -/
inductive ItemsText : Bytes → Items → Prop
  | one (w t w' : Bytes) (j : Json) (hw : White w) (hw' : White w') (h : ValueText t j) : ItemsText (w ++ t ++ w') (.cons j .nil)
  | more (w t w' r : Bytes) (j : Json) (l : Items) (hw : White w) (hw' : White w') (h : ValueText t j) (hr : ItemsText r l) :
      ItemsText (w ++ t ++ w' ++ [44] ++ r) (.cons j l)
/-- One or more members, separated by commas. -/
inductive MembersText : Bytes → Members → Prop
  | one (w k w' w2 t w3 : Bytes) (name : Str) (j : Json) (hw : White w) (hw' : White w') (hw2 : White w2) (hw3 : White w3)
      (hk : StringText k name) (h : ValueText t j) :
      MembersText (w ++ [34] ++ k ++ [34] ++ w' ++ [58] ++ w2 ++ t ++ w3) (.cons name j .nil)
  | more (w k w' w2 t w3 r : Bytes) (name : Str) (j : Json) (l : Members) (hw : White w) (hw' : White w') (hw2 : White w2) (hw3 : White w3)
      (hk : StringText k name) (h : ValueText t j) (hr : MembersText r l) :
      MembersText (w ++ [34] ++ k ++ [34] ++ w' ++ [58] ++ w2 ++ t ++ w3 ++ [44] ++ r) (.cons name j l)
end

/-- A text of a value: white space may surround it. -/
def JsonText (b : Bytes) (j : Json) : Prop := ∃ w t w', White w ∧ White w' ∧ ValueText t j ∧ b = w ++ t ++ w'

end Spec
end Halo
