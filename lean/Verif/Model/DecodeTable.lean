import Verif.Model.HeaderParser

/-!
# Reading instructions (src/decodetable.h, src/decodetable.cc)

The state of a `VCDiffCodeTableReader` is the position in the instruction stream and
`pending_second_instruction_` (`none` for `kNoOpcode`). `last_instruction_start_` and
`last_pending_second_instruction_` are the values of these two on entry to `GetNextInstruction`
(src/decodetable.cc:55-56); `UnGetInstruction` (src/decodetable.h:108-122) goes back to them. The
model keeps the entry state instead of storing the two members. (The first `VCD_DFATAL` in
`UnGetInstruction` would need the position to move backwards, the second one a second instruction
pending both before and after the call; `Vcd.fetchHalf` makes visible that neither happens: a
pending instruction is consumed first and nothing else is then read.)
-/

namespace Vcd

/-- The `do ... while (instruction_type == VCD_NOOP)` loop of `GetNextInstruction`
(src/decodetable.cc:61-90): the instruction found, the new `pending_second_instruction_`, and the
rest of the instruction stream; `none` for "ran off end of instruction stream", in which case the
whole stream has been consumed and nothing is pending. The arguments are the instruction stream and
`pending_second_instruction_`. -/
def fetchHalf (t : CodeTable) : Bytes → Option UInt8 → Option (Half × Option UInt8 × Bytes)
  | s, some op => some (t.second op, none, s)
  | [], none => none
  | op :: s, none =>
    let pending := if (t.second op).inst ≠ vcdNoop then some op else none
    let h := t.first op
    if h.inst = vcdNoop then fetchHalf t s pending
    else some (h, pending, s)

/-- The results of `GetNextInstruction` (src/decodetable.cc:47-110). `endOfData` carries the stream
position and the pending second instruction after the call. -/
inductive NextInstruction where
  | inst (type : UInt8) (size : Nat) (mode : UInt8) (rest : Bytes) (pending : Option UInt8)
  | endOfData (rest : Bytes) (pending : Option UInt8)
  | error
  deriving DecidableEq, Repr

/-- `VCDiffCodeTableReader::GetNextInstruction` (src/decodetable.cc:47-110). The check that
`Init()` was called (lines 50-54) is left out: the decoder always calls it
(src/vcdecoder.cc:1049). -/
def getNextInstruction (t : CodeTable) (pending : Option UInt8) (s : Bytes) : NextInstruction :=
  match fetchHalf t s pending with
  | none => .endOfData [] none
  | some (h, pending', s') =>
    if h.size = 0 then
      match parseVarint32 s' with
      | .error => .error
      | .endOfData => .endOfData s pending  -- UnGetInstruction()
      | .ok size rest => .inst h.inst size h.mode rest pending'
    else .inst h.inst h.size.toNat h.mode s' pending'

end Vcd
