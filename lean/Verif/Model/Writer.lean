import Verif.Model.InstructionMap
import Verif.Model.Engine

/-!
# The code table writer (src/google/encodetable.h, src/encodetable.cc)

Sizes are `size_t` values cast to `int32_t` when written (`AppendSizeToString`); the cast is
`toInt32`. `VCD_WARNING` messages are in `Verif.Model.EncoderLog`; a `VCD_DFATAL` check is a fault of kind
`assertion` (what a build with `NDEBUG` does after it is in `Model.Release`).
-/

namespace Vcd

/-- `VCDiffCodeTableWriter` (src/google/encodetable.h:121-232).

* `map` is `instruction_map_`, `none` for `NULL`; `lastOpcode` is `last_opcode_index_`, `none` for -1;
* `inst`, `data`, `addr` are `instructions_and_sizes_`, `separate_data_for_add_and_run_` and
  `separate_addresses_for_copy_`; with `interleaved`, `data_for_add_and_run_` and
  `addresses_for_copy_` point to the first of these (`InitSectionPointers`,
  src/encodetable.cc:92-100). -/
structure Writer where
  interleaved : Bool
  maxMode : Nat
  cache : AddrCache
  dictionarySize : Nat := 0
  targetLength : Nat := 0
  table : CodeTable
  map : Option InstructionMap := none
  lastOpcode : Option Nat := none
  checksum : Option Nat := none
  inst : Bytes := []
  data : Bytes := []
  addr : Bytes := []
  deriving DecidableEq

namespace Writer

/-- `VCDiffCodeTableWriter(interleaved)` (src/encodetable.cc:56-66). -/
def new (interleaved : Bool) : Writer :=
  { interleaved, maxMode := defaultLastMode, cache := AddrCache.newDefault, table := defaultTable }

/-- The constructor with a code table (src/encodetable.cc:68-84). -/
def newCustom (interleaved : Bool) (near same : Nat) (table : CodeTable) (maxMode : Nat) : Writer :=
  { interleaved, maxMode, cache := AddrCache.new near same, table }

/-- `Init` (src/encodetable.cc:102-120): the result and the new state. The instruction map is built
for the table at hand; the default one is shared (src/instruction_map.cc:27-34). An access out of
bounds while it is built is a fault. `address_cache_.Init()` returning `false` leaves the cache
alone. -/
def init (w : Writer) (dictionarySize : Nat) : Except Fault (Bool × Writer) :=
  let w := { w with dictionarySize }
  let w? : Option Writer :=
    match w.map with
    | some _ => some w
    | none => (InstructionMap.build w.table w.maxMode).map fun m => { w with map := some m }
  match w? with
  | none => .error .oobRead
  | some w =>
    match w.cache.init with
    | none => .ok (false, w)
    | some cache => .ok (true, { w with cache, targetLength := 0, lastOpcode := none })

/-- `kHeaderStandardFormat`, `kHeaderExtendedFormat` and `WriteHeader` (src/encodetable.cc:29-43,
122-136). `VCD_STANDARD_FORMAT` is 0. -/
def header (formatExtensions : Nat) : Bytes :=
  if formatExtensions = 0 then [0xD6, 0xC3, 0xC4, 0x00, 0x00] else [0xD6, 0xC3, 0xC4, 0x53, 0x00]

/-- `AppendSizeToString` and `AppendSizeToOutputString` (src/encodetable.cc:278-286): the bytes
appended. A negative number is `VCD_DFATAL` (src/varint_bigendian.cc:62-67). -/
def sizeBytes (size : Nat) : Except Fault Bytes :=
  if toInt32 size < 0 then .error .assertion
  else match encodeVarint maxBytes32 (toInt32 size) with
  | none => .error .bufferOverrun
  | some bs => .ok bs

/-- `CalculateLengthOfSizeAsVarint` (src/encodetable.cc:274-276). A negative number is `VCD_DFATAL` here too
(src/varint_bigendian.cc:110-115); every size whose length is asked for is then passed to `sizeBytes`, which has that
fault. -/
def sizeLength (size : Nat) : Nat := varintLength (toInt32 size)

/-- `LookupSecondOpcode` for the last opcode, with `size` if it fits a byte and then with size 0
(src/encodetable.cc:192-214): the compound opcode, and whether the size has to be written. -/
def lookupSecond (m : InstructionMap) (lastOpcode : UInt8) (inst : UInt8) (size mode : Nat) :
    Except Fault (Option (UInt8 × Bool)) :=
  match (if size ≤ 255 then m.secondMap.lookup lastOpcode inst size mode else .found none) with
  | .fault => .error .oobRead
  | .found (some op) => .ok (some (op, false))
  | .found none =>
    match m.secondMap.lookup lastOpcode inst 0 mode with
    | .fault => .error .oobRead
    | .found (some op) => .ok (some (op, true))
    | .found none => .ok none

/-- `LookupFirstOpcode`, with `size` if it fits a byte and then with size 0
(src/encodetable.cc:216-233): the opcode, and whether the size has to be written. -/
def lookupFirst (m : InstructionMap) (inst : UInt8) (size mode : Nat) : Except Fault (UInt8 × Bool) :=
  match (if size ≤ 255 then m.firstMap.lookup inst size mode else .found none) with
  | .fault => .error .oobRead
  | .found (some op) => .ok (op, false)
  | .found none =>
    match m.firstMap.lookup inst 0 mode with
    | .fault => .error .oobRead
    | .found (some op) => .ok (op, true)
    | .found none => .error .assertion

/-- The attempt to merge an instruction into the last opcode (src/encodetable.cc:189-214): the index of
that opcode, the compound opcode, and whether the size has to be written. -/
def compound (w : Writer) (m : InstructionMap) (inst : UInt8) (size mode : Nat) :
    Except Fault (Option (Nat × UInt8 × Bool)) :=
  match w.lastOpcode with
  | none => .ok none
  | some i =>
    match w.inst[i]? with
    | none => .error .oobRead
    | some lastOpcode =>
      match lookupSecond m lastOpcode inst size mode with
      | .error f => .error f
      | .ok none => .ok none
      | .ok (some (op, explicit)) => .ok (some (i, op, explicit))

/-- The size operand, if there is one (src/encodetable.cc:211, 232). -/
def sizeOperand (explicit : Bool) (size : Nat) : Except Fault Bytes :=
  if explicit then sizeBytes size else .ok []

/-- `EncodeInstruction` (src/encodetable.cc:171-235). -/
def encodeInstruction (w : Writer) (inst : UInt8) (size mode : Nat) : Except Fault Writer :=
  match w.map with
  | none => .error .assertion
  | some m =>
    match w.compound m inst size mode with
    | .error f => .error f
    | .ok (some (i, op, explicit)) =>
      (sizeOperand explicit size).map fun bs =>
        { w with inst := w.inst.set i op ++ bs, lastOpcode := none }
    | .ok none =>
      match lookupFirst m inst size mode with
      | .error f => .error f
      | .ok (op, explicit) =>
        (sizeOperand explicit size).map fun bs =>
          { w with inst := w.inst ++ [op] ++ bs, lastOpcode := some w.inst.length }

/-- Appends to `*data_for_add_and_run_`. -/
def appendData (w : Writer) (bytes : Bytes) : Writer :=
  if w.interleaved then { w with inst := w.inst ++ bytes } else { w with data := w.data ++ bytes }

/-- Appends to `*addresses_for_copy_`. -/
def appendAddr (w : Writer) (bytes : Bytes) : Writer :=
  if w.interleaved then { w with inst := w.inst ++ bytes } else { w with addr := w.addr ++ bytes }

/-- `target_length_ += size` (src/encodetable.cc:240, 265, 271). -/
def advance (w : Writer) (size : Nat) : Writer := { w with targetLength := w.targetLength + size }

/-- `Add` (src/encodetable.cc:237-241). -/
def add (w : Writer) (bytes : Bytes) : Except Fault Writer :=
  (w.encodeInstruction vcdAdd bytes.length 0).map fun w => (w.appendData bytes).advance bytes.length

/-- `Run` (src/encodetable.cc:268-272). -/
def run (w : Writer) (size : Nat) (byte : UInt8) : Except Fault Writer :=
  (w.encodeInstruction vcdRun size 0).map fun w => (w.appendData [byte]).advance size

/-- `Copy` (src/encodetable.cc:243-266). -/
def copy (w : Writer) (offset : Int) (size : Nat) : Except Fault Writer :=
  match w.map with
  | none => .error .assertion
  | some _ =>
    match w.cache.encodeAddress offset (toInt32 (w.dictionarySize + w.targetLength)) with
    | .fault f => .error f
    | .ok mode encoded cache =>
      match { w with cache }.encodeInstruction vcdCopy size mode with
      | .error f => .error f
      | .ok w =>
        match w.cache.addressBytes mode encoded with
        | none => .error .bufferOverrun
        | some bytes => .ok ((w.appendAddr bytes).advance size)

/-- `AddChecksum` (src/google/encodetable.h:99-102). -/
def addChecksum (w : Writer) (checksum : Nat) : Writer := { w with checksum := some checksum }

/-- The length of the checksum field (src/encodetable.cc:300-303). -/
def checksumLength : Option Nat → Nat
  | some c => varintLength (c : Int)
  | none => 0

/-- `CalculateLengthOfTheDeltaEncoding` (src/encodetable.cc:290-305). -/
def deltaLength (w : Writer) : Nat :=
  sizeLength w.targetLength + 1 + sizeLength w.data.length + sizeLength w.inst.length +
    sizeLength w.addr.length + w.data.length + w.inst.length + w.addr.length +
    checksumLength w.checksum

/-- The checksum field (src/encodetable.cc:350-353). -/
def checksumBytes : Option Nat → Except Fault Bytes
  | none => .ok []
  | some c =>
    match encodeVarint maxBytes64 (c : Int) with
    | none => .error .bufferOverrun
    | some bs => .ok bs

/-- The bytes of the delta encoding, between "Start of Delta Encoding" and "End of Delta Encoding" in
`Output` (src/encodetable.cc:340-360). -/
def deltaBytes (w : Writer) : Except Fault Bytes := do
  let target ← sizeBytes w.targetLength
  let dataLength ← sizeBytes w.data.length
  let instLength ← sizeBytes w.inst.length
  let addrLength ← sizeBytes w.addr.length
  let checksum ← checksumBytes w.checksum
  .ok (target ++ [0x00] ++ dataLength ++ instLength ++ addrLength ++ checksum ++ w.data ++ w.inst ++ w.addr)

/-- The bytes of a window (src/encodetable.cc:312-381): window header and delta encoding. The lengths are
compared at the end (`VCD_DFATAL`, lines 361-367). -/
def windowBytes (w : Writer) : Except Fault Bytes := do
  let indicator : UInt8 := if w.checksum.isSome then 0x05 else 0x01
  let dictionarySize ← sizeBytes w.dictionarySize
  let position ← sizeBytes 0
  let length ← sizeBytes w.deltaLength
  let delta ← w.deltaBytes
  if w.deltaLength ≠ delta.length then .error .assertion
  else .ok ([indicator] ++ dictionarySize ++ position ++ length ++ delta)

/-- `Output` (src/encodetable.cc:307-386): the bytes appended and the new state. The reservation of
space in the output string is in `Model.OutputString`. -/
def output (w : Writer) : Except Fault (Bytes × Writer) :=
  match (if w.inst = [] then .ok [] else w.windowBytes) with
  | .error f => .error f
  | .ok out =>
    match (if w.inst = [] then w else { w with data := [], inst := [], addr := [] }).init w.dictionarySize with
    | .error f => .error f
    | .ok (false, _) => .error .assertion
    | .ok (true, w) => .ok (out, w)

/-- One call from the engine: the bytes appended to the output string and the new state. -/
def call (w : Writer) : CoderCall → Except Fault (Bytes × Writer)
  | .add bytes => (w.add bytes).map fun w => ([], w)
  | .copy offset size => (w.copy offset size).map fun w => ([], w)
  | .run size byte => (w.run size byte).map fun w => ([], w)
  | .output => w.output

/-- A sequence of calls. -/
def calls (w : Writer) : List CoderCall → Except Fault (Bytes × Writer)
  | [] => .ok ([], w)
  | c :: cs =>
    match w.call c with
    | .error f => .error f
    | .ok (out, w) => (w.calls cs).map fun r => (out ++ r.1, r.2)

end Writer
end Vcd
