import Verif.Model.Basic

/-!
# Meaning of the delta instructions (RFC 3284, section 3)

A window is rebuilt in a growing string `u`: the source segment followed by the part of the target
window produced so far.
-/

namespace Vcd.Spec

/-- Append, byte by byte, the `n` bytes of `u` starting at address `a`; the bytes being appended may
themselves be copied ("the copied data may overlap with the data being produced"). -/
def extend (u : Bytes) (a : Nat) : Nat → Bytes
  | 0 => u
  | n + 1 => extend (u ++ [u.getD a 0]) (a + 1) n

/-- A delta instruction with its operands. -/
inductive Op where
  | add (bytes : Bytes)
  | run (byte : UInt8) (size : Nat)
  | copy (addr size : Nat)
  deriving DecidableEq, Repr

/-- The number of target bytes an instruction produces. -/
def Op.size : Op → Nat
  | .add bytes => bytes.length
  | .run _ size => size
  | .copy _ size => size

/-- The effect of one instruction on `u`. -/
def Op.apply (u : Bytes) : Op → Bytes
  | .add bytes => u ++ bytes
  | .run b n => u ++ List.replicate n b
  | .copy a n => extend u a n

/-- The effect of a list of instructions. -/
def execOps (u : Bytes) (ops : List Op) : Bytes := ops.foldl Op.apply u

/-- The addresses of the COPY instructions, in order. -/
def Op.addrs : Op → List Nat
  | .copy a _ => [a]
  | _ => []

/-- The number of bytes a list of instructions produces. -/
def sizes (ops : List Op) : Nat := (ops.map Op.size).sum

end Vcd.Spec
