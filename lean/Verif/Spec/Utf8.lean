import Verif.Json
/-! # UTF-8 -/

namespace Halo.Spec

/-- The bytes are the UTF-8 encoding of some characters. -/
def Utf8 (b : Bytes) : Prop := ∃ cs : List Char, b = cs.flatMap String.utf8EncodeChar

mutual
/-- Every string in the value is UTF-8, keys included. -/
inductive Utf8Strings : Json → Prop
  | null : Utf8Strings .null
  | bool (b : Bool) : Utf8Strings (.bool b)
  | num (n : Nat) : Utf8Strings (.num n)
  | str (s : Str) (h : Utf8 s) : Utf8Strings (.str s)
  | arr (l : Items) (h : Utf8Items l) : Utf8Strings (.arr l)
  | obj (l : Members) (h : Utf8Members l) : Utf8Strings (.obj l)
inductive Utf8Items : Items → Prop
  | nil : Utf8Items .nil
  | cons (j : Json) (t : Items) (h : Utf8Strings j) (ht : Utf8Items t) : Utf8Items (.cons j t)
inductive Utf8Members : Members → Prop
  | nil : Utf8Members .nil
  | cons (k : Str) (j : Json) (t : Members) (hk : Utf8 k) (h : Utf8Strings j) (ht : Utf8Members t) : Utf8Members (.cons k j t)
end

end Halo.Spec
