import Verif.Model.Engine

/-!
# The JSON writer (src/google/jsonwriter.h, src/jsonwriter.cc)
-/

namespace Vcd

/-- `JSONCodeTableWriter` (src/google/jsonwriter.h:86-93). -/
structure JsonWriter where
  output : Bytes := []
  outputCalled : Bool := false
  opcodeAdded : Bool := false
  deriving DecidableEq, Repr

namespace JsonWriter

/-- The lower-case hexadecimal digit of `n < 16`, as `snprintf` with `%x` writes it. -/
def hexDigit (n : Nat) : UInt8 := UInt8.ofNat (if n < 10 then 0x30 + n else 0x61 + (n - 10))

/-- One iteration of the loop of `JSONEscape` (src/jsonwriter.cc:52-70): the bytes appended for one
byte. `"\\u%04x"` of a byte is `\u00` and two digits. -/
def escapeByte (c : UInt8) : Bytes :=
  if c = 0x22 then [0x5C, 0x22]
  else if c = 0x5C then [0x5C, 0x5C]
  else if c = 0x08 then [0x5C, 0x62]
  else if c = 0x0C then [0x5C, 0x66]
  else if c = 0x0A then [0x5C, 0x6E]
  else if c = 0x0D then [0x5C, 0x72]
  else if c = 0x09 then [0x5C, 0x74]
  else if c < 32 ∨ c ≥ 127 then [0x5C, 0x75, 0x30, 0x30, hexDigit (c.toNat / 16), hexDigit (c.toNat % 16)]
  else [c]

/-- `JSONEscape` (src/jsonwriter.cc:48-72). -/
def escape (data : Bytes) : Bytes := data.flatMap escapeByte

/-- The decimal digits of a number, as `operator<<` writes it; the `fuel` bounds their number. -/
def decimalLoop : (fuel : Nat) → Nat → Bytes → Bytes
  | 0, _, acc => acc
  | fuel + 1, n, acc =>
    let acc := UInt8.ofNat (0x30 + n % 10) :: acc
    if n / 10 = 0 then acc else decimalLoop fuel (n / 10) acc

/-- `ostream << n` for a non-negative number. -/
def decimal (n : Nat) : Bytes := decimalLoop (n + 1) n []

/-- `ostream << n` for an `int32_t`. -/
def decimalInt (n : Int) : Bytes := if n < 0 then 0x2D :: decimal n.natAbs else decimal n.toNat

/-- `Init` (src/jsonwriter.cc:30-34). -/
def init (w : JsonWriter) : JsonWriter := { w with output := [0x5B], opcodeAdded := false }

/-- The leading comma (src/jsonwriter.cc:75-78, 86-89, 97-100) and what follows it. -/
def push (w : JsonWriter) (bytes : Bytes) : JsonWriter :=
  { w with output := w.output ++ (if w.opcodeAdded then [0x2C] else []) ++ bytes, opcodeAdded := true }

/-- `Add` (src/jsonwriter.cc:74-83). -/
def add (w : JsonWriter) (bytes : Bytes) : JsonWriter := w.push ([0x22] ++ escape bytes ++ [0x22])

/-- `Copy` (src/jsonwriter.cc:85-94). -/
def copy (w : JsonWriter) (offset : Int) (size : Nat) : JsonWriter :=
  w.push (decimalInt offset ++ [0x2C] ++ decimal size)

/-- `Run` (src/jsonwriter.cc:96-105): the bytes are not escaped. -/
def run (w : JsonWriter) (size : Nat) (byte : UInt8) : JsonWriter :=
  w.push ([0x22] ++ List.replicate size byte ++ [0x22])

/-- `Output` (src/jsonwriter.cc:36-40): the bytes appended and the new state. -/
def flush (w : JsonWriter) : Bytes × JsonWriter := (w.output, { w with outputCalled := true, output := [] })

/-- `FinishEncoding` (src/jsonwriter.cc:42-46): the bytes appended. -/
def finish (w : JsonWriter) : Bytes := if w.outputCalled then [0x5D] else []

/-- `IsAscii` (src/jsonwriter.cc:132-139), the result of `VerifyDictionary` and `VerifyChunk` (lines
112-130). -/
def isAscii (data : Bytes) : Bool := data.all (· < 128)

/-- One call from the engine. -/
def call (w : JsonWriter) : CoderCall → Bytes × JsonWriter
  | .add bytes => ([], w.add bytes)
  | .copy offset size => ([], w.copy offset size)
  | .run size byte => ([], w.run size byte)
  | .output => w.flush

/-- A sequence of calls. -/
def calls (w : JsonWriter) : List CoderCall → Bytes × JsonWriter
  | [] => ([], w)
  | c :: cs =>
    let r := w.call c
    let rs := r.2.calls cs
    (r.1 ++ rs.1, rs.2)

end JsonWriter
end Vcd
