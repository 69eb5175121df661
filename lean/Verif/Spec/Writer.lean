import Verif.Spec.Rfc
import Verif.Spec.Engine
import Verif.Model.Writer

/-!
# What a code table writer may be told
-/

namespace Vcd.Spec

/-- A list of instructions that makes sense for a dictionary of `dictSize` bytes: none of size 0, and each
COPY starts before the place where it is executed. -/
def Sensible (dictSize : Nat) (ops : List Op) : Prop :=
  ∀ pre o post, ops = pre ++ o :: post →
    0 < o.size ∧ ∀ a n, o = .copy a n → a < dictSize + sizes pre

/-- A code table and cache sizes a writer can be given: the table is usable with just the copy modes the
caches make, with all single instructions inside the array bounds of the instruction map, and the caches
are not too large (with 254 NEAR slots `addrCache_254_broken`). -/
structure WritableCoding (c : Coding) : Prop where
  valid : ValidTable (c.near + c.same + 1) c.table
  fits : SwappedSizesFit c.table
  near : c.near ≤ 253
  sum : c.near + c.same ≤ 254

/-- A window to be written: its instructions and the bytes it stands for. -/
abbrev Part := List Op × Bytes

/-- What a user of an initialized writer does to write windows: for each, `AddChecksum` if checksums are
wanted, the calls for its instructions, and `Output`. -/
def writeWindows (checksum : Bool) (w : Writer) : List Part → Except Fault Bytes
  | [] => .ok []
  | (ops, T) :: parts =>
    match (if checksum then w.addChecksum (computeAdler32 T) else w).calls (ops.map Op.call ++ [.output]) with
    | .error f => .error f
    | .ok (out, w) => (writeWindows checksum w parts).map (out ++ ·)

/-- A part that can be written with the dictionary `dict` and is within the limits `s`. -/
structure GoodPart (s : Settings) (dict : Bytes) (part : Part) : Prop where
  sensible : Sensible dict.length part.1
  exec : execOps dict part.1 = dict ++ part.2
  small : dict.length + part.2.length < 2 ^ 31
  few : part.2.length + 11 * part.1.length + 26 < 2 ^ 31
  window : part.2.length ≤ s.maxWindow

/-- What the parts stand for together. -/
def partsTarget (parts : List Part) : Bytes := parts.flatMap Prod.snd

end Vcd.Spec
