import Verif.Spec.Exec
import Verif.Model.Encoder

/-!
# JSON documents (RFC 8259) made of strings and natural numbers, and what they stand for

Only what the JSON format of the library needs: one array of strings of ASCII characters and of non-negative
integers, without white space.
-/

namespace Vcd.Spec

/-- The value of a hexadecimal digit. -/
inductive HexDigit : UInt8 → Nat → Prop where
  | digit {c : UInt8} : 0x30 ≤ c → c ≤ 0x39 → HexDigit c (c.toNat - 0x30)
  | lower {c : UInt8} : 0x61 ≤ c → c ≤ 0x66 → HexDigit c (c.toNat - 0x61 + 10)
  | upper {c : UInt8} : 0x41 ≤ c → c ≤ 0x46 → HexDigit c (c.toNat - 0x41 + 10)

/-- The two-character escapes (RFC 8259, section 7): the character after the backslash and what it
stands for. -/
def shortEscapes : List (UInt8 × UInt8) :=
  [(0x22, 0x22), (0x5C, 0x5C), (0x2F, 0x2F), (0x62, 0x08), (0x66, 0x0C), (0x6E, 0x0A), (0x72, 0x0D), (0x74, 0x09)]

/-- `JsonChar text c`: inside a string, `text` stands for the ASCII character `c`. -/
inductive JsonChar : Bytes → UInt8 → Prop where
  | plain {c : UInt8} : 0x20 ≤ c → c < 0x80 → c ≠ 0x22 → c ≠ 0x5C → JsonChar [c] c
  | short {e c : UInt8} : (e, c) ∈ shortEscapes → JsonChar [0x5C, e] c
  | unicode {a b c d x : UInt8} {i j k l : Nat} : HexDigit a i → HexDigit b j → HexDigit c k → HexDigit d l →
      x.toNat = ((i * 16 + j) * 16 + k) * 16 + l → x < 0x80 → JsonChar [0x5C, 0x75, a, b, c, d] x

/-- The characters between the quotation marks of a string. -/
inductive JsonChars : Bytes → Bytes → Prop where
  | nil : JsonChars [] []
  | cons {t ts : Bytes} {c : UInt8} {cs : Bytes} : JsonChar t c → JsonChars ts cs → JsonChars (t ++ ts) (c :: cs)

/-- A value: a string or a number. -/
inductive JsonValue where
  | str (s : Bytes)
  | num (n : Nat)
  deriving DecidableEq, Repr

/-- The number that decimal digits stand for. -/
def decimalValue (digits : Bytes) : Nat := digits.foldl (fun n c => 10 * n + (c.toNat - 0x30)) 0

/-- The text of a value. Numbers have no superfluous zeros. -/
inductive JsonText : Bytes → JsonValue → Prop where
  | str {t s : Bytes} : JsonChars t s → JsonText ([0x22] ++ t ++ [0x22]) (.str s)
  | num {ds : Bytes} : ds ≠ [] → (∀ c ∈ ds, 0x30 ≤ c ∧ c ≤ 0x39) → (ds.head? = some 0x30 → ds = [0x30]) →
      JsonText ds (.num (decimalValue ds))

/-- One or more values, separated by commas. -/
inductive JsonItems : Bytes → List JsonValue → Prop where
  | one {t : Bytes} {v : JsonValue} : JsonText t v → JsonItems t [v]
  | cons {t ts : Bytes} {v : JsonValue} {vs : List JsonValue} : JsonText t v → JsonItems ts vs →
      JsonItems (t ++ [0x2C] ++ ts) (v :: vs)

/-- An array. -/
inductive JsonArray : Bytes → List JsonValue → Prop where
  | empty : JsonArray [0x5B, 0x5D] []
  | mk {t : Bytes} {vs : List JsonValue} : JsonItems t vs → JsonArray ([0x5B] ++ t ++ [0x5D]) vs

/-- The instructions that an array stands for (src/google/jsonwriter.h:31-38): a string is an ADD, two
numbers are the address and the size of a COPY. -/
def jsonOps : List JsonValue → Option (List Op)
  | [] => some []
  | .str s :: vs => (jsonOps vs).map (Op.add s :: ·)
  | .num a :: .num n :: vs => (jsonOps vs).map (Op.copy a n :: ·)
  | _ => none

/-- Only 7-bit characters. -/
def Ascii (s : Bytes) : Prop := ∀ c ∈ s, c < 0x80

/-- The replies of an encoder in the JSON format whose dictionary is ASCII. `items` is the text of the
instructions for a chunk. `allowed` says whether encoding is in progress, `fresh` that no instruction has been
output since `StartEncoding`, and `used` that some has been output at any time. The opening bracket comes with
the first instructions, the closing one with `FinishEncoding`. -/
def jsonProtocol (items : Bytes → Bytes) : (allowed fresh used : Bool) → List EncoderCall → List EncoderReply
  | _, _, _, [] => []
  | _, _, used, .start :: cs => ⟨true, []⟩ :: jsonProtocol items true true used cs
  | true, fresh, used, .chunk data :: cs =>
    if data.all (· < 0x80) then
      if data = [] then ⟨true, []⟩ :: jsonProtocol items true fresh used cs
      else ⟨true, (if fresh then [0x5B] else [0x2C]) ++ items data⟩ :: jsonProtocol items true false true cs
    else ⟨false, []⟩ :: jsonProtocol items true fresh used cs
  | true, fresh, used, .finish :: cs => ⟨true, if used then [0x5D] else []⟩ :: jsonProtocol items false fresh used cs
  | false, fresh, used, .chunk _ :: cs => ⟨false, []⟩ :: jsonProtocol items false fresh used cs
  | false, fresh, used, .finish :: cs => ⟨false, []⟩ :: jsonProtocol items false fresh used cs

end Vcd.Spec
