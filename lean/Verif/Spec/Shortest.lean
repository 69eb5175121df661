import Verif.Spec.Rfc

/-!
# Windows with given instructions
-/

namespace Vcd.Spec

/-- The mode of an instruction that is a COPY. -/
def copyMode (h : Half) : List Nat := if h.inst.toNat = 3 then [h.mode.toNat] else []

/-- The modes of the COPY instructions, in order, where the code table `t` is used. -/
def copyModes (t : CodeTable) (items : List Item) : List Nat :=
  items.flatMap fun
    | .opcode b => copyMode (t.first b) ++ copyMode (t.second b)
    | _ => []

/-- `w` is a window with a source segment of `d` bytes and the instructions `ops`, coded with the default code table; the COPY
instructions have the modes `modes`. With `interleaved`, everything is in the instructions section. There is a checksum field
with the value `checksum`, or none. This says less than `WindowCode` does, and names the instructions. -/
def WindowWith (d : Nat) (interleaved : Bool) (checksum : Option Nat) (ops : List Op) (modes : List Nat) (w : Bytes) : Prop :=
  ∃ (R : Reading w) (items : List Item) (data inst addr : Bytes),
    R.ind &&& 3 ≠ 0 ∧ (∃ lb pb, R.seg = lb ++ pb ∧ IsVarint lb ∧ varintValue lb = d ∧ IsVarint pb) ∧
    Program defaultCoding rfc [] d items ops ∧ copyModes defaultTable items = modes ∧ R.body = data ++ inst ++ addr ∧
    (if interleaved then data = [] ∧ addr = [] ∧ inst = items.flatMap Item.bytes
      else data = items.flatMap Item.dataBytes ∧ inst = items.flatMap Item.inst ∧ addr = items.flatMap Item.addr) ∧
    varintValue R.tlen = sizes ops ∧ varintValue R.dlen = data.length ∧ varintValue R.ilen = inst.length ∧
    varintValue R.alen = addr.length ∧ ChecksumField checksum R.cks ∧ (R.ind &&& 4 ≠ 0 ↔ checksum.isSome = true) ∧
    varintValue R.dl = (R.tlen ++ [R.di] ++ R.dlen ++ R.ilen ++ R.alen ++ R.cks).length + R.body.length

/-- An ADD of at most four bytes is followed by a COPY of five or six: there is an opcode for the two together, but only if the
COPY does not use the SAME cache. -/
def TightPair (ops : List Op) : Prop :=
  ∃ front bs a n rest, ops = front ++ .add bs :: .copy a n :: rest ∧ bs.length ≤ 4 ∧ (n = 5 ∨ n = 6)

end Vcd.Spec
