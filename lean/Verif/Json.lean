import Verif.Text
/-! # JSON and base64, at byte level

Messages travel as JSON (`to_binary`, `from_binary`: cosmwasm-std 1.1.8 over serde-json-wasm 0.4.1), payloads of `Send` and
`Receive` as base64 of JSON (`cosmwasm_std::Binary`). Both are outside the repository; this is what they do, as far as the
messages of the four contracts use it.

Simplifications: numbers are natural numbers (no message type has signed or fractional JSON numbers, so a text with one is
refused anyway, later); bytes of a string are not checked to be UTF-8 (strings are arbitrary bytes throughout the model; see `Utf8.lean`
and C93). -/

namespace Halo

mutual
/-- JSON values. The members of an object are kept in the order written, repeated keys included. -/
inductive Json where
  | null
  | bool (b : Bool)
  | num (n : Nat)
  | str (s : Str)
  | arr (l : Items)
  | obj (l : Members)
/-- The elements of an array. -/
inductive Items where
  | nil
  | cons (j : Json) (t : Items)
/-- The members of an object. -/
inductive Members where
  | nil
  | cons (k : Str) (j : Json) (t : Members)
end

/-- The elements as a list. -/
def Items.toList : Items → List Json
  | .nil => []
  | .cons j t => j :: t.toList

/-- An array with the given elements. -/
def Items.ofList : List Json → Items
  | [] => .nil
  | j :: t => .cons j (Items.ofList t)

/-- The members as a list. -/
def Members.toList : Members → List (Str × Json)
  | .nil => []
  | .cons k j t => (k, j) :: t.toList

/-- An object with the given members. -/
def Members.ofList : List (Str × Json) → Members
  | [] => .nil
  | (k, j) :: t => .cons k j (Members.ofList t)

/-! ## Printing -/

/-- A hexadecimal digit. -/
def hexDigit (n : Nat) : UInt8 := if n < 10 then 48 + UInt8.ofNat n else 97 + UInt8.ofNat (n - 10)

/-- One byte of a string as written: quote, backslash and control characters are escaped. -/
def escapeByte (b : UInt8) : Str :=
  if b = 34 then [92, 34]
  else if b = 92 then [92, 92]
  else if b = 8 then [92, 98]
  else if b = 12 then [92, 102]
  else if b = 10 then [92, 110]
  else if b = 13 then [92, 114]
  else if b = 9 then [92, 116]
  else if b < 32 then [92, 117, 48, 48, hexDigit (b.toNat / 16), hexDigit (b.toNat % 16)]
  else [b]

/-- A string as written, between quotes. -/
def printStr (s : Str) : Str := 34 :: (s.flatMap escapeByte ++ [34])

mutual
/-- The text of a value, without white space. -/
def Json.print : Json → Str
  | .null => asc "null"
  | .bool true => asc "true"
  | .bool false => asc "false"
  | .num n => natToDec n
  | .str s => printStr s
  | .arr l => 91 :: l.print
  | .obj l => 123 :: l.print
/-- The elements of an array and the closing bracket. -/
def Items.print : Items → Str
  | .nil => [93]
  | .cons j t => j.print ++ t.printRest
/-- What follows an element. -/
def Items.printRest : Items → Str
  | .nil => [93]
  | .cons j t => 44 :: (j.print ++ t.printRest)
/-- The members of an object and the closing brace. -/
def Members.print : Members → Str
  | .nil => [125]
  | .cons k j t => printStr k ++ 58 :: (j.print ++ t.printRest)
/-- What follows a member. -/
def Members.printRest : Members → Str
  | .nil => [125]
  | .cons k j t => 44 :: (printStr k ++ 58 :: (j.print ++ t.printRest))
end

/-! ## Reading -/

/-- White space: space, line feed, tab, carriage return. -/
def isWs (b : UInt8) : Bool := b = 32 || b = 10 || b = 9 || b = 13

/-- Skip white space. -/
def skipWs : Str → Str
  | [] => []
  | b :: t => if isWs b then skipWs t else b :: t

/-- The value of a hexadecimal digit. -/
def hexValue (b : UInt8) : Option Nat :=
  if 48 ≤ b ∧ b ≤ 57 then some (b.toNat - 48)
  else if 97 ≤ b ∧ b ≤ 102 then some (b.toNat - 87)
  else if 65 ≤ b ∧ b ≤ 70 then some (b.toNat - 55)
  else none

/-- Four hexadecimal digits. -/
def hex4 (a b c d : UInt8) : Option Nat := do
  let w ← hexValue a
  let x ← hexValue b
  let y ← hexValue c
  let z ← hexValue d
  return ((w * 16 + x) * 16 + y) * 16 + z

/-- The UTF-8 encoding of a code point. -/
def utf8Of (n : Nat) : Str :=
  if n < 0x80 then [UInt8.ofNat n]
  else if n < 0x800 then [UInt8.ofNat (0xC0 + n / 64), UInt8.ofNat (0x80 + n % 64)]
  else if n < 0x10000 then
    [UInt8.ofNat (0xE0 + n / 4096), UInt8.ofNat (0x80 + n / 64 % 64), UInt8.ofNat (0x80 + n % 64)]
  else [UInt8.ofNat (0xF0 + n / 262144), UInt8.ofNat (0x80 + n / 4096 % 64), UInt8.ofNat (0x80 + n / 64 % 64),
    UInt8.ofNat (0x80 + n % 64)]

/-- The rest of a string after its opening quote: its content and what follows the closing quote. -/
def parseString : Nat → Str → Option (Str × Str)
  | 0, _ => none
  | _ + 1, [] => none
  | n + 1, b :: t =>
    if b = 34 then some ([], t)
    else if b = 92 then
      match t with
      | [] => none
      | e :: t =>
        if e = 117 then
          match t with
          | h1 :: h2 :: h3 :: h4 :: t => do
            let u ← hex4 h1 h2 h3 h4
            if 0xD800 ≤ u ∧ u < 0xDC00 then
              match t with
              | 92 :: 117 :: g1 :: g2 :: g3 :: g4 :: t => do
                let v ← hex4 g1 g2 g3 g4
                if 0xDC00 ≤ v ∧ v < 0xE000 then do
                  let (s, r) ← parseString n t
                  return (utf8Of (0x10000 + (u - 0xD800) * 1024 + (v - 0xDC00)) ++ s, r)
                else none
              | _ => none
            else if 0xDC00 ≤ u ∧ u < 0xE000 then none
            else do
              let (s, r) ← parseString n t
              return (utf8Of u ++ s, r)
          | _ => none
        else do
          let x ← if e = 34 then some 34 else if e = 92 then some 92 else if e = 47 then some 47
            else if e = 98 then some 8 else if e = 102 then some 12 else if e = 110 then some 10
            else if e = 114 then some 13 else if e = 116 then some 9 else none
          let (s, r) ← parseString n t
          return (x :: s, r)
    else do
      let (s, r) ← parseString n t
      return (b :: s, r)

/-- A natural number: the longest run of digits, without a superfluous leading zero. -/
def parseNat (s : Str) : Option (Nat × Str) :=
  let d := s.takeWhile isDigit
  let v := d.foldl (fun a b => a * 10 + (b.toNat - 48)) 0
  if natToDec v = d then some (v, s.dropWhile isDigit) else none

mutual
/-- Read a value (the first argument bounds the number of steps; the length of the text is always enough). -/
def parseValue : Nat → Str → Option (Json × Str)
  | 0, _ => none
  | n + 1, s =>
    match skipWs s with
    | [] => none
    | b :: t =>
      if b = 34 then do
        let (x, r) ← parseString t.length t
        return (.str x, r)
      else if b = 91 then
        match skipWs t with
        | [] => none
        | e :: r => if e = 93 then some (.arr .nil, r) else do
          let (l, r) ← parseItems n t
          return (.arr l, r)
      else if b = 123 then
        match skipWs t with
        | [] => none
        | e :: r => if e = 125 then some (.obj .nil, r) else do
          let (l, r) ← parseMembers n t
          return (.obj l, r)
      else if isDigit b then do
        let (v, r) ← parseNat (b :: t)
        return (.num v, r)
      else if (b :: t).take 4 = asc "null" then some (.null, t.drop 3)
      else if (b :: t).take 4 = asc "true" then some (.bool true, t.drop 3)
      else if (b :: t).take 5 = asc "false" then some (.bool false, t.drop 4)
      else none
/-- Read the elements of a non-empty array. -/
def parseItems : Nat → Str → Option (Items × Str)
  | 0, _ => none
  | n + 1, s => do
    let (j, r) ← parseValue n s
    match skipWs r with
    | [] => none
    | e :: r =>
      if e = 93 then some (.cons j .nil, r)
      else if e = 44 then do
        let (l, r) ← parseItems n r
        return (.cons j l, r)
      else none
/-- Read the members of a non-empty object. -/
def parseMembers : Nat → Str → Option (Members × Str)
  | 0, _ => none
  | n + 1, s =>
    match skipWs s with
    | [] => none
    | q :: t => if q ≠ 34 then none else do
      let (k, r) ← parseString t.length t
      match skipWs r with
      | [] => none
      | e :: r => if e ≠ 58 then none else do
        let (j, r) ← parseValue n r
        match skipWs r with
        | [] => none
        | e :: r =>
          if e = 125 then some (.cons k j .nil, r)
          else if e = 44 then do
            let (l, r) ← parseMembers n r
            return (.cons k j l, r)
          else none
end

/-- `from_slice`: one value and nothing after it but white space. -/
def Json.parse (s : Str) : Option Json := do
  let (j, r) ← parseValue (2 * s.length + 1) s
  if skipWs r = [] then some j else none

/-! ## Base64 (standard alphabet, padded) -/

/-- The character for six bits. -/
def b64Char (n : Nat) : UInt8 :=
  if n < 26 then UInt8.ofNat (65 + n)
  else if n < 52 then UInt8.ofNat (97 + (n - 26))
  else if n < 62 then UInt8.ofNat (48 + (n - 52))
  else if n = 62 then 43 else 47

/-- The six bits of a character. -/
def b64Value (b : UInt8) : Option Nat :=
  if 65 ≤ b ∧ b ≤ 90 then some (b.toNat - 65)
  else if 97 ≤ b ∧ b ≤ 122 then some (b.toNat - 71)
  else if 48 ≤ b ∧ b ≤ 57 then some (b.toNat + 4)
  else if b = 43 then some 62
  else if b = 47 then some 63
  else none

/-- `Binary::to_base64`. -/
def toBase64 : Bytes → Str
  | [] => []
  | [a] => [b64Char (a.toNat / 4), b64Char (a.toNat % 4 * 16), 61, 61]
  | [a, b] => [b64Char (a.toNat / 4), b64Char (a.toNat % 4 * 16 + b.toNat / 16), b64Char (b.toNat % 16 * 4), 61]
  | a :: b :: c :: t =>
    b64Char (a.toNat / 4) :: b64Char (a.toNat % 4 * 16 + b.toNat / 16) :: b64Char (b.toNat % 16 * 4 + c.toNat / 64) ::
      b64Char (c.toNat % 64) :: toBase64 t

/-- `Binary::from_base64`: groups of four; only the last may be padded, and then its unused bits are zero. -/
def fromBase64 : Str → Option Bytes
  | [] => some []
  | a :: b :: c :: d :: t => do
    let w ← b64Value a
    let x ← b64Value b
    if d = 61 ∧ t = [] then
      if c = 61 then
        if x % 16 = 0 then some [UInt8.ofNat (w * 4 + x / 16)] else none
      else do
        let y ← b64Value c
        if y % 4 = 0 then some [UInt8.ofNat (w * 4 + x / 16), UInt8.ofNat (x % 16 * 16 + y / 4)] else none
    else do
      let y ← b64Value c
      let z ← b64Value d
      let r ← fromBase64 t
      return UInt8.ofNat (w * 4 + x / 16) :: UInt8.ofNat (x % 16 * 16 + y / 4) :: UInt8.ofNat (y % 4 * 64 + z) :: r
  | _ => none

end Halo
