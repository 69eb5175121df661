import Verif.Model.Basic

/-!
# Specification of variable-length integers (RFC 3284, section 2)

Base-128 big-endian digits, one per byte, with the top bit of every byte except the last one set.
-/

namespace Vcd.Spec

/-- The number denoted by a list of base-128 digits, most significant first. -/
def digitsValue (ds : List Nat) : Nat := ds.foldl (fun acc d => acc * 128 + d) 0

/-- The digit carried by a byte: its low seven bits. -/
def digit (b : UInt8) : Nat := b.toNat % 128

/-- A byte announces that more bytes follow. -/
def continues (b : UInt8) : Prop := 128 ≤ b.toNat

/-- `bs` is a complete variable-length integer: continuation bytes, then one final byte. -/
def IsVarint (bs : Bytes) : Prop :=
  ∃ front last, bs = front ++ [last] ∧ (∀ b ∈ front, continues b) ∧ ¬ continues last

/-- The value of the digits in `bs`. -/
def varintValue (bs : Bytes) : Nat := digitsValue (bs.map digit)

end Vcd.Spec
