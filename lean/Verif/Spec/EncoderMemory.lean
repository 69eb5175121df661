import Verif.Spec.Ownership

/-!
# The memory that dictionaries and encoders hold
-/

namespace Vcd.Spec
open Vcd.Ownership (Op World HashObject)

/-- The bytes of the objects in a list, those that have been deleted left out. -/
def bytesOf {α : Type} (size : α → Nat) (objects : List (Option α)) : Nat :=
  (objects.map fun | some x => size x | none => 0).sum

/-- The bytes in the three tables of a `BlockHash`; an `int` has 4. -/
def tableBytes (h : BlockHash) : Nat := 4 * (h.table.length + h.next.length + h.last.length)

/-- The bytes that a writer has in its strings. -/
def bufferBytes : Coder → Nat
  | .binary w => w.data.length + w.inst.length + w.addr.length
  | .json w => w.output.length

/-- What is stored: the copies of dictionaries, the tables of block hashes, and what the writers have not output yet. Members of a fixed size are
not counted (they are a constant for each object that exists). -/
def stored (w : World) : Nat :=
  bytesOf List.length w.arrays + bytesOf (fun h : HashObject => tableBytes h.tables) w.hashes + bytesOf bufferBytes w.writers

/-- The dictionaries that the program has not deleted: `w` is the world it has left. -/
def existing (ops : List Op) (w : World) : List Bytes :=
  ((dictionariesOf ops).zip w.dictionaries).filterMap fun p => if p.2.isSome then some p.1 else none

end Vcd.Spec
