import Verif.Base
/-! # The data of a reply

When a contract has been created on behalf of another, the host calls the creator's `reply` with a protobuf message
`MsgInstantiateContractResponse { string address = 1; bytes data = 2; }`. Both `reply` entry points (`halo-pair/src/contract.rs:194-205`,
`halo-factory/src/contract.rs:233-262`) take the address out of it with `cw_utils::parse_reply_instantiate_data` (cw-utils 1.0.1,
`parse_reply.rs`, external), which is a hand-written reader of protobuf.

Not modelled: that the address is valid UTF-8 (`String::from_utf8`; the host's addresses are), and that a length is cut to 32 bits by
`as usize` (no message of 4 GB fits a contract's memory). -/

namespace Halo

/-! ## The host -/

/-- A protobuf varint: seven bits per byte, the lowest first; all bytes but the last have the eighth bit set. -/
def varint (n : Nat) : Bytes :=
  if n < 128 then [UInt8.ofNat n] else UInt8.ofNat (128 + n % 128) :: varint (n / 128)
termination_by n
decreasing_by omega

/-- A length-delimited field (wire type 2); proto3 leaves out empty ones. -/
def protoField (number : Nat) (v : Bytes) : Bytes :=
  if v = [] then [] else UInt8.ofNat (8 * number + 2) :: (varint v.length ++ v)

/-- `MsgInstantiateContractResponse` as the host writes it. -/
def instantiateResponse (address : Str) (data : Bytes) : Bytes := protoField 1 address ++ protoField 2 data

/-! ## cw-utils -/

/-- `VARINT_MAX_BYTES`. -/
def varintMaxBytes : Nat := 9

/-- `parse_protobuf_varint`, with so many bytes to go: the number and the rest. -/
def parseVarint : Nat → Bytes → Option (Nat × Bytes)
  | 0, _ => none
  | _ + 1, [] => none
  | n + 1, b :: t =>
    if b.toNat < 128 then some (b.toNat, t)
    else do
      let (r, t) ← parseVarint n t
      return (b.toNat % 128 + 128 * r, t)

/-- `parse_protobuf_length_prefixed`: the field and the rest. Of the wire type only the two lowest bits are looked at. -/
def parseLengthPrefixed (number : Nat) : Bytes → Option (Bytes × Bytes)
  | [] => some ([], [])
  | b :: t => do
    if b.toNat / 8 ≠ number then none
    else if b.toNat % 4 ≠ 2 then none
    else
      let (len, t) ← parseVarint varintMaxBytes t
      if t.length < len then none else return (t.take len, t.drop len)

/-- `parse_instantiate_response_data`: the address and the data. What follows is ignored. -/
def parseInstantiateResponse (b : Bytes) : Option (Str × Bytes) := do
  let (address, b) ← parseLengthPrefixed 1 b
  let (data, _) ← parseLengthPrefixed 2 b
  return (address, data)

/-- `parse_reply_instantiate_data`, of which the contracts use the address only. -/
def parseReply (data : Option Bytes) : Option Str := do
  let b ← data
  let (address, _) ← parseInstantiateResponse b
  return address

end Halo
