import Verif.Model.Basic

/-!
# Variable-length integers (src/varint_bigendian.cc)
-/

namespace Vcd

/-- `VarintBE<int32_t>::kMaxVal` and `VarintBE<int64_t>::kMaxVal` (src/varint_bigendian.cc:25-26). -/
def maxVal32 : Nat := 0x7FFFFFFF
/-- See `maxVal32`. -/
def maxVal64 : Nat := 0x7FFFFFFFFFFFFFFF

/-- `VarintMaxBytes<int32_t>::kMaxBytes` / `VarintMaxBytes<int64_t>::kMaxBytes`
(src/varint_bigendian.h:55-64). -/
def maxBytes32 : Nat := 5
/-- See `maxBytes32`. -/
def maxBytes64 : Nat := 9

/-- The possible results of `VarintBE::Parse`: a value together with the new read position,
`RESULT_END_OF_DATA`, or `RESULT_ERROR`; in the last two cases the read position is unchanged. -/
inductive ParseResult where
  | ok (value : Nat) (rest : Bytes)
  | endOfData
  | error
  deriving DecidableEq, Repr

/-- The loop of `VarintBE<T>::Parse` (src/varint_bigendian.cc:43-56). `result` is the accumulator,
the list is `[parse_ptr, limit)`, `maxVal` is `kMaxVal` of `T`. `result` is kept as a natural
number; that it never exceeds `maxVal`, so that the signed C++ variable does not overflow, is
`Vcd.Props.varint_accumulator_in_range`. -/
def parseVarintLoop (maxVal : Nat) : Nat → Bytes → ParseResult
  | _, [] => .endOfData
  | result, b :: bs =>
    let result := result + (b &&& 0x7F).toNat
    if b &&& 0x80 = 0 then .ok result bs
    else if result > maxVal >>> 7 then .error
    else parseVarintLoop maxVal (result <<< 7) bs

/-- `VarintBE<T>::Parse` (src/varint_bigendian.cc:36-57). The `limit == NULL` case (line 39-41) is
not modelled: buffers are lists. -/
def parseVarint (maxVal : Nat) (buf : Bytes) : ParseResult :=
  parseVarintLoop maxVal 0 buf

/-- `VarintBE<int32_t>::Parse`. -/
def parseVarint32 (buf : Bytes) : ParseResult := parseVarint maxVal32 buf
/-- `VarintBE<int64_t>::Parse`. -/
def parseVarint64 (buf : Bytes) : ParseResult := parseVarint maxVal64 buf

/-- The `while (v)` loop of `VarintBE<T>::EncodeInternal` (src/varint_bigendian.cc:73-78).
`acc` is the part of `varint_buf` already filled (it is filled from the back); `fuel` bounds the
number of iterations and is the room left in `varint_buf`; `none` is a write before the start of
the buffer. -/
def encodeVarintLoop : (fuel : Nat) → Nat → Bytes → Option Bytes
  | _, 0, acc => some acc
  | 0, _ + 1, _ => none
  | fuel + 1, v + 1, acc =>
    encodeVarintLoop fuel ((v + 1) >>> 7) (UInt8.ofNat (((v + 1) &&& 0x7F) ||| 0x80) :: acc)

/-- `VarintBE<T>::EncodeInternal` / `Encode` / `AppendToString` / `AppendToOutputString`
(src/varint_bigendian.cc:59-105): the bytes produced for `v`, or `none` if the buffer of
`maxBytes` bytes would be overrun. A negative argument is a `VCD_DFATAL` and produces nothing
(lines 62-67). -/
def encodeVarint (maxBytes : Nat) (v : Int) : Option Bytes :=
  if v < 0 then some []
  else encodeVarintLoop (maxBytes - 1) (v.toNat >>> 7) [UInt8.ofNat (v.toNat &&& 0x7F)]

/-- The `do ... while` loop of `VarintBE<T>::Length` (src/varint_bigendian.cc:116-120). -/
def varintLengthLoop : (fuel : Nat) → Nat → Nat → Nat
  | 0, _, len => len
  | fuel + 1, v, len =>
    let v := v >>> 7
    if v = 0 then len + 1 else varintLengthLoop fuel v (len + 1)

/-- `VarintBE<T>::Length` (src/varint_bigendian.cc:108-122). `v + 1` iterations are always
enough. -/
def varintLength (v : Int) : Nat :=
  if v < 0 then 0 else varintLengthLoop (v.toNat + 1) v.toNat 0

end Vcd
