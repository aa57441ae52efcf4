import Verif.Json
/-! # Reading JSON with a check for UTF-8

Rust's `String` is UTF-8. serde-json-wasm 0.4.1 (external) checks every string it has read, keys included, with `core::str::from_utf8`
and fails on any other. `Json.parse` leaves that out; this is the reader with it. -/

namespace Halo

/-- A continuation byte: between 0x80 and 0xBF. -/
def isCont (b : UInt8) : Bool := 0x80 ≤ b && b ≤ 0xBF

/-- `core::str::from_utf8` (`run_utf8_validation`): the ranges of first and second bytes are those of the table in the Unicode
standard; no overlong forms, no surrogates, nothing above U+10FFFF. -/
def utf8Valid : Bytes → Bool
  | [] => true
  | a :: t =>
    if a < 0x80 then utf8Valid t
    else if 0xC2 ≤ a ∧ a ≤ 0xDF then
      match t with
      | b :: t => isCont b && utf8Valid t
      | _ => false
    else if 0xE0 ≤ a ∧ a ≤ 0xEF then
      match t with
      | b :: c :: t =>
        ((a = 0xE0 && 0xA0 ≤ b && b ≤ 0xBF) || (0xE1 ≤ a && a ≤ 0xEC && isCont b) || (a = 0xED && 0x80 ≤ b && b ≤ 0x9F) ||
          (0xEE ≤ a && isCont b)) && isCont c && utf8Valid t
      | _ => false
    else if 0xF0 ≤ a ∧ a ≤ 0xF4 then
      match t with
      | b :: c :: d :: t =>
        ((a = 0xF0 && 0x90 ≤ b && b ≤ 0xBF) || (0xF1 ≤ a && a ≤ 0xF3 && isCont b) || (a = 0xF4 && 0x80 ≤ b && b ≤ 0x8F)) && isCont c &&
          isCont d && utf8Valid t
      | _ => false
    else false

mutual
/-- All strings in a value pass the check. -/
def Json.checked : Json → Bool
  | .str s => utf8Valid s
  | .arr l => l.checked
  | .obj l => l.checked
  | _ => true
/-- In all elements. -/
def Items.checked : Items → Bool
  | .nil => true
  | .cons j t => j.checked && t.checked
/-- In all members. -/
def Members.checked : Members → Bool
  | .nil => true
  | .cons k j t => utf8Valid k && j.checked && t.checked
end

/-- `from_slice` with the check. -/
def Json.parseChecked (b : Bytes) : Option Json := (Json.parse b).filter Json.checked

end Halo
