import Verif.Base
/-! # The protobuf encoding of what a reply announces -/

namespace Halo.Spec

/-- `l` is a varint for `n`: base 128, lowest digit first, all bytes but the last marked by 128. -/
inductive Varint : Bytes → Nat → Prop
  | last (b : UInt8) (h : b.toNat < 128) : Varint [b] b.toNat
  | more (b : UInt8) (h : 128 ≤ b.toNat) {t : Bytes} {n : Nat} (ht : Varint t n) : Varint (b :: t) (b.toNat - 128 + 128 * n)

/-- `b` is field `k`, with the value `v`: a tag, the length and that many bytes. Tags are the field number times 8 plus the wire type
2; plus 6 will do as well. -/
def FieldText (k : Nat) (b v : Bytes) : Prop :=
  ∃ (tag : UInt8) (l : Bytes), (tag.toNat = 8 * k + 2 ∨ tag.toNat = 8 * k + 6) ∧ Varint l v.length ∧ l.length ≤ 9 ∧ b = tag :: (l ++ v)

/-- The bytes announce address `a` with data `d`: nothing at all; or the address alone; or both, and after that anything. -/
def Announces (b : Bytes) (a d : Bytes) : Prop :=
  (b = [] ∧ a = [] ∧ d = []) ∨ (FieldText 1 b a ∧ d = []) ∨ ∃ x y z, b = x ++ y ++ z ∧ FieldText 1 x a ∧ FieldText 2 y d

end Halo.Spec
