/-!
# Basic vocabulary of the model

Bytes, sizes and the outcomes shared by all modelled functions.
-/

namespace Vcd

/-- A buffer of bytes. A C++ pointer pair `[position, end)` is modelled by the list of the bytes
between the two pointers (e.g. `ParseableChunk`, src/headerparser.h:37-116). -/
abbrev Bytes := List UInt8

/-- `INT32_MAX`, the largest `VCDAddress`/`int32_t` (src/varint_bigendian.cc:25,
src/vcdecoder.cc:331). -/
def int32Max : Nat := 2147483647

/-- `2^64`, one more than the largest `size_t`. (Model assumption: LP64.) -/
def size64 : Nat := 18446744073709551616

/-- C++ conversion of a `size_t` (or wider) value to `int32_t`: two's complement wrap, as every
supported compiler implements `static_cast<int32_t>` (e.g. src/vcdecoder.cc:1181). -/
def toInt32 (n : Nat) : Int :=
  if n % 4294967296 < 2147483648 then ((n % 4294967296 : Nat) : Int)
  else ((n % 4294967296 : Nat) : Int) - 4294967296

/-- Subtraction of two `size_t` values, with the wrap-around of unsigned arithmetic
(e.g. src/vcdecoder.cc:974). Both arguments are assumed to be below `2^64`. -/
def szSub (a b : Nat) : Nat := if b ≤ a then a - b else a + size64 - b

/-- Things the C++ program must never do. The model stops with a `Fault` instead of giving the
operation a made-up result. -/
inductive Fault where
  /-- signed 32-bit overflow in `DecodeNearAddress` (src/addrcache.h:122-125) -/
  | nearOverflow
  /-- index outside `near_addresses_` / `same_addresses_` (src/addrcache.h:145-156) -/
  | cacheOob
  /-- read outside the dictionary, the decoded target or an input buffer -/
  | oobRead
  /-- `decoded_target_` grew past the capacity reserved in `ReadHeader` while pointers into it
  are live (src/vcdecoder.cc:1102-1116, 1219) -/
  | realloc
  /-- a `VCD_DFATAL` internal-consistency check that does not return an error code fired -/
  | assertion
  /-- overflow of an `int` computed by the encoder (src/blockhash.cc:441) -/
  | intOverflow
  /-- a variable-length integer longer than the buffer it is written to (src/varint_bigendian.cc:88) -/
  | bufferOverrun
  /-- a loop did not end within the bound the model allows for it -/
  | diverge
  deriving DecidableEq, Repr

end Vcd
