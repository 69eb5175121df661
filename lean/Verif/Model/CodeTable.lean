import Verif.Model.AddrCache

/-!
# The code table (src/codetable.h, src/codetable.cc)
-/

namespace Vcd

/-- `VCD_NOOP`, `VCD_ADD`, `VCD_RUN`, `VCD_COPY` (src/codetable.h:30-35); `VCD_COPY` is also
`VCD_LAST_INSTRUCTION_TYPE`. -/
def vcdNoop : UInt8 := 0
/-- See `vcdNoop`. -/
def vcdAdd : UInt8 := 1
/-- See `vcdNoop`. -/
def vcdRun : UInt8 := 2
/-- See `vcdNoop`. -/
def vcdCopy : UInt8 := 3

/-- One of the two instructions of an opcode. -/
structure Half where
  inst : UInt8
  size : UInt8
  mode : UInt8
  deriving DecidableEq, Repr

/-- `VCDiffCodeTableData` (src/codetable.h:73-106): six arrays of 256 bytes. -/
structure CodeTable where
  inst1 : Bytes
  inst2 : Bytes
  size1 : Bytes
  size2 : Bytes
  mode1 : Bytes
  mode2 : Bytes
  lengths : inst1.length = 256 ∧ inst2.length = 256 ∧ size1.length = 256 ∧ size2.length = 256 ∧
    mode1.length = 256 ∧ mode2.length = 256
  deriving DecidableEq

namespace CodeTable

/-- The struct whose memory holds the given 1536 bytes (a custom table is received as the bytes of
the struct, which has no padding; src/vcdecoder.cc:726-731). -/
def ofBytes (b : Bytes) (h : b.length = 1536) : CodeTable where
  inst1 := b.take 256
  inst2 := (b.drop 256).take 256
  size1 := (b.drop 512).take 256
  size2 := (b.drop 768).take 256
  mode1 := (b.drop 1024).take 256
  mode2 := (b.drop 1280).take 256
  lengths := by simp [h]

/-- The bytes of the struct. -/
def toBytes (t : CodeTable) : Bytes := t.inst1 ++ t.inst2 ++ t.size1 ++ t.size2 ++ t.mode1 ++ t.mode2

/-- `inst1[op]`, `size1[op]`, `mode1[op]`. The arrays have 256 elements and `op` is a byte, so the
default of `getD` is never used; it keeps the terms small for evaluation by the kernel. -/
def first (t : CodeTable) (op : UInt8) : Half :=
  ⟨t.inst1.getD op.toNat 0, t.size1.getD op.toNat 0, t.mode1.getD op.toNat 0⟩

/-- `inst2[op]`, `size2[op]`, `mode2[op]`. See `first`. -/
def second (t : CodeTable) (op : UInt8) : Half :=
  ⟨t.inst2.getD op.toNat 0, t.size2.getD op.toNat 0, t.mode2.getD op.toNat 0⟩

end CodeTable

/-- The opcodes in the order of the loops `for (int i = 0; i < kCodeTableSize; ++i)`. -/
def allOpcodes : List UInt8 := (List.range 256).map UInt8.ofNat

/-- `VCDiffCodeTableData::ValidateOpcode` (src/codetable.cc:187-225). -/
def validateOpcode (h : Half) (maxMode : Nat) : Bool :=
  !(h.inst.toNat > 3) && !(h.mode.toNat > maxMode) && !(h.inst == vcdNoop && h.size != 0)
    && !(h.inst != vcdCopy && h.mode != 0)

/-- The state of the first loop of `Validate`: `no_errors_found` and `hasOpcodeForTypeAndMode`. -/
structure ValidateState where
  noErrors : Bool
  has : List Bool

/-- One iteration of the loop over opcodes in `Validate` (src/codetable.cc:239-256). -/
def validateStep (t : CodeTable) (maxMode : Nat) (s : ValidateState) (op : UInt8) :
    ValidateState :=
  let noErrors := validateOpcode (t.second op) maxMode &&
    (validateOpcode (t.first op) maxMode && s.noErrors)
  let h := t.first op
  if h.size = 0 ∧ (t.second op).inst = vcdNoop ∧ h.inst.toNat + h.mode.toNat < 3 + maxMode + 1 then
    { noErrors, has := s.has.set (h.inst.toNat + h.mode.toNat) true }
  else { noErrors, has := s.has }

/-- `VCDiffCodeTableData::Validate(max_mode)` (src/codetable.cc:232-272). -/
def CodeTable.validate (t : CodeTable) (maxMode : Nat) : Bool :=
  let s := allOpcodes.foldl (validateStep t maxMode)
    { noErrors := true, has := List.replicate (3 + maxMode + 1) false }
  -- second loop: every element except number VCD_NOOP must be set
  s.noErrors && (s.has.drop 1).all id

/-- `kDefaultCodeTableData.inst1` (src/codetable.cc:55-75), copied from the source. -/
def defaultInst1 : List UInt8 :=
  [2, 1, 1, 1, 1, 1, 1, 1, 1, 1, 1, 1, 1, 1, 1, 1, 1, 1, 1, 3, 3, 3, 3, 3, 3, 3, 3, 3, 3, 3, 3, 3,
   3, 3, 3, 3, 3, 3, 3, 3, 3, 3, 3, 3, 3, 3, 3, 3, 3, 3, 3, 3, 3, 3, 3, 3, 3, 3, 3, 3, 3, 3, 3, 3,
   3, 3, 3, 3, 3, 3, 3, 3, 3, 3, 3, 3, 3, 3, 3, 3, 3, 3, 3, 3, 3, 3, 3, 3, 3, 3, 3, 3, 3, 3, 3, 3,
   3, 3, 3, 3, 3, 3, 3, 3, 3, 3, 3, 3, 3, 3, 3, 3, 3, 3, 3, 3, 3, 3, 3, 3, 3, 3, 3, 3, 3, 3, 3, 3,
   3, 3, 3, 3, 3, 3, 3, 3, 3, 3, 3, 3, 3, 3, 3, 3, 3, 3, 3, 3, 3, 3, 3, 3, 3, 3, 3, 3, 3, 3, 3, 3,
   3, 3, 3, 1, 1, 1, 1, 1, 1, 1, 1, 1, 1, 1, 1, 1, 1, 1, 1, 1, 1, 1, 1, 1, 1, 1, 1, 1, 1, 1, 1, 1,
   1, 1, 1, 1, 1, 1, 1, 1, 1, 1, 1, 1, 1, 1, 1, 1, 1, 1, 1, 1, 1, 1, 1, 1, 1, 1, 1, 1, 1, 1, 1, 1,
   1, 1, 1, 1, 1, 1, 1, 1, 1, 1, 1, 1, 1, 1, 1, 1, 1, 1, 1, 1, 1, 1, 1, 3, 3, 3, 3, 3, 3, 3, 3, 3]

/-- `kDefaultCodeTableData.inst2` (src/codetable.cc:77-97), copied from the source. -/
def defaultInst2 : List UInt8 :=
  [0, 0, 0, 0, 0, 0, 0, 0, 0, 0, 0, 0, 0, 0, 0, 0, 0, 0, 0, 0, 0, 0, 0, 0, 0, 0, 0, 0, 0, 0, 0, 0,
   0, 0, 0, 0, 0, 0, 0, 0, 0, 0, 0, 0, 0, 0, 0, 0, 0, 0, 0, 0, 0, 0, 0, 0, 0, 0, 0, 0, 0, 0, 0, 0,
   0, 0, 0, 0, 0, 0, 0, 0, 0, 0, 0, 0, 0, 0, 0, 0, 0, 0, 0, 0, 0, 0, 0, 0, 0, 0, 0, 0, 0, 0, 0, 0,
   0, 0, 0, 0, 0, 0, 0, 0, 0, 0, 0, 0, 0, 0, 0, 0, 0, 0, 0, 0, 0, 0, 0, 0, 0, 0, 0, 0, 0, 0, 0, 0,
   0, 0, 0, 0, 0, 0, 0, 0, 0, 0, 0, 0, 0, 0, 0, 0, 0, 0, 0, 0, 0, 0, 0, 0, 0, 0, 0, 0, 0, 0, 0, 0,
   0, 0, 0, 3, 3, 3, 3, 3, 3, 3, 3, 3, 3, 3, 3, 3, 3, 3, 3, 3, 3, 3, 3, 3, 3, 3, 3, 3, 3, 3, 3, 3,
   3, 3, 3, 3, 3, 3, 3, 3, 3, 3, 3, 3, 3, 3, 3, 3, 3, 3, 3, 3, 3, 3, 3, 3, 3, 3, 3, 3, 3, 3, 3, 3,
   3, 3, 3, 3, 3, 3, 3, 3, 3, 3, 3, 3, 3, 3, 3, 3, 3, 3, 3, 3, 3, 3, 3, 1, 1, 1, 1, 1, 1, 1, 1, 1]

/-- `kDefaultCodeTableData.size1` (src/codetable.cc:99-119), copied from the source. -/
def defaultSize1 : List UInt8 :=
  [0, 0, 1, 2, 3, 4, 5, 6, 7, 8, 9, 10, 11, 12, 13, 14, 15, 16, 17, 0, 4, 5, 6, 7, 8, 9, 10, 11, 12, 13, 14, 15,
   16, 17, 18, 0, 4, 5, 6, 7, 8, 9, 10, 11, 12, 13, 14, 15, 16, 17, 18, 0, 4, 5, 6, 7, 8, 9, 10, 11, 12, 13, 14, 15,
   16, 17, 18, 0, 4, 5, 6, 7, 8, 9, 10, 11, 12, 13, 14, 15, 16, 17, 18, 0, 4, 5, 6, 7, 8, 9, 10, 11, 12, 13, 14, 15,
   16, 17, 18, 0, 4, 5, 6, 7, 8, 9, 10, 11, 12, 13, 14, 15, 16, 17, 18, 0, 4, 5, 6, 7, 8, 9, 10, 11, 12, 13, 14, 15,
   16, 17, 18, 0, 4, 5, 6, 7, 8, 9, 10, 11, 12, 13, 14, 15, 16, 17, 18, 0, 4, 5, 6, 7, 8, 9, 10, 11, 12, 13, 14, 15,
   16, 17, 18, 1, 1, 1, 2, 2, 2, 3, 3, 3, 4, 4, 4, 1, 1, 1, 2, 2, 2, 3, 3, 3, 4, 4, 4, 1, 1, 1, 2, 2,
   2, 3, 3, 3, 4, 4, 4, 1, 1, 1, 2, 2, 2, 3, 3, 3, 4, 4, 4, 1, 1, 1, 2, 2, 2, 3, 3, 3, 4, 4, 4, 1,
   1, 1, 2, 2, 2, 3, 3, 3, 4, 4, 4, 1, 2, 3, 4, 1, 2, 3, 4, 1, 2, 3, 4, 4, 4, 4, 4, 4, 4, 4, 4, 4]

/-- `kDefaultCodeTableData.size2` (src/codetable.cc:121-141), copied from the source. -/
def defaultSize2 : List UInt8 :=
  [0, 0, 0, 0, 0, 0, 0, 0, 0, 0, 0, 0, 0, 0, 0, 0, 0, 0, 0, 0, 0, 0, 0, 0, 0, 0, 0, 0, 0, 0, 0, 0,
   0, 0, 0, 0, 0, 0, 0, 0, 0, 0, 0, 0, 0, 0, 0, 0, 0, 0, 0, 0, 0, 0, 0, 0, 0, 0, 0, 0, 0, 0, 0, 0,
   0, 0, 0, 0, 0, 0, 0, 0, 0, 0, 0, 0, 0, 0, 0, 0, 0, 0, 0, 0, 0, 0, 0, 0, 0, 0, 0, 0, 0, 0, 0, 0,
   0, 0, 0, 0, 0, 0, 0, 0, 0, 0, 0, 0, 0, 0, 0, 0, 0, 0, 0, 0, 0, 0, 0, 0, 0, 0, 0, 0, 0, 0, 0, 0,
   0, 0, 0, 0, 0, 0, 0, 0, 0, 0, 0, 0, 0, 0, 0, 0, 0, 0, 0, 0, 0, 0, 0, 0, 0, 0, 0, 0, 0, 0, 0, 0,
   0, 0, 0, 4, 5, 6, 4, 5, 6, 4, 5, 6, 4, 5, 6, 4, 5, 6, 4, 5, 6, 4, 5, 6, 4, 5, 6, 4, 5, 6, 4, 5,
   6, 4, 5, 6, 4, 5, 6, 4, 5, 6, 4, 5, 6, 4, 5, 6, 4, 5, 6, 4, 5, 6, 4, 5, 6, 4, 5, 6, 4, 5, 6, 4,
   5, 6, 4, 5, 6, 4, 5, 6, 4, 5, 6, 4, 4, 4, 4, 4, 4, 4, 4, 4, 4, 4, 4, 1, 1, 1, 1, 1, 1, 1, 1, 1]

/-- `kDefaultCodeTableData.mode1` (src/codetable.cc:143-163), copied from the source. -/
def defaultMode1 : List UInt8 :=
  [0, 0, 0, 0, 0, 0, 0, 0, 0, 0, 0, 0, 0, 0, 0, 0, 0, 0, 0, 0, 0, 0, 0, 0, 0, 0, 0, 0, 0, 0, 0, 0,
   0, 0, 0, 1, 1, 1, 1, 1, 1, 1, 1, 1, 1, 1, 1, 1, 1, 1, 1, 2, 2, 2, 2, 2, 2, 2, 2, 2, 2, 2, 2, 2,
   2, 2, 2, 3, 3, 3, 3, 3, 3, 3, 3, 3, 3, 3, 3, 3, 3, 3, 3, 4, 4, 4, 4, 4, 4, 4, 4, 4, 4, 4, 4, 4,
   4, 4, 4, 5, 5, 5, 5, 5, 5, 5, 5, 5, 5, 5, 5, 5, 5, 5, 5, 6, 6, 6, 6, 6, 6, 6, 6, 6, 6, 6, 6, 6,
   6, 6, 6, 7, 7, 7, 7, 7, 7, 7, 7, 7, 7, 7, 7, 7, 7, 7, 7, 8, 8, 8, 8, 8, 8, 8, 8, 8, 8, 8, 8, 8,
   8, 8, 8, 0, 0, 0, 0, 0, 0, 0, 0, 0, 0, 0, 0, 0, 0, 0, 0, 0, 0, 0, 0, 0, 0, 0, 0, 0, 0, 0, 0, 0,
   0, 0, 0, 0, 0, 0, 0, 0, 0, 0, 0, 0, 0, 0, 0, 0, 0, 0, 0, 0, 0, 0, 0, 0, 0, 0, 0, 0, 0, 0, 0, 0,
   0, 0, 0, 0, 0, 0, 0, 0, 0, 0, 0, 0, 0, 0, 0, 0, 0, 0, 0, 0, 0, 0, 0, 0, 1, 2, 3, 4, 5, 6, 7, 8]

/-- `kDefaultCodeTableData.mode2` (src/codetable.cc:165-185), copied from the source. -/
def defaultMode2 : List UInt8 :=
  [0, 0, 0, 0, 0, 0, 0, 0, 0, 0, 0, 0, 0, 0, 0, 0, 0, 0, 0, 0, 0, 0, 0, 0, 0, 0, 0, 0, 0, 0, 0, 0,
   0, 0, 0, 0, 0, 0, 0, 0, 0, 0, 0, 0, 0, 0, 0, 0, 0, 0, 0, 0, 0, 0, 0, 0, 0, 0, 0, 0, 0, 0, 0, 0,
   0, 0, 0, 0, 0, 0, 0, 0, 0, 0, 0, 0, 0, 0, 0, 0, 0, 0, 0, 0, 0, 0, 0, 0, 0, 0, 0, 0, 0, 0, 0, 0,
   0, 0, 0, 0, 0, 0, 0, 0, 0, 0, 0, 0, 0, 0, 0, 0, 0, 0, 0, 0, 0, 0, 0, 0, 0, 0, 0, 0, 0, 0, 0, 0,
   0, 0, 0, 0, 0, 0, 0, 0, 0, 0, 0, 0, 0, 0, 0, 0, 0, 0, 0, 0, 0, 0, 0, 0, 0, 0, 0, 0, 0, 0, 0, 0,
   0, 0, 0, 0, 0, 0, 0, 0, 0, 0, 0, 0, 0, 0, 0, 1, 1, 1, 1, 1, 1, 1, 1, 1, 1, 1, 1, 2, 2, 2, 2, 2,
   2, 2, 2, 2, 2, 2, 2, 3, 3, 3, 3, 3, 3, 3, 3, 3, 3, 3, 3, 4, 4, 4, 4, 4, 4, 4, 4, 4, 4, 4, 4, 5,
   5, 5, 5, 5, 5, 5, 5, 5, 5, 5, 5, 6, 6, 6, 6, 7, 7, 7, 7, 8, 8, 8, 8, 0, 0, 0, 0, 0, 0, 0, 0, 0]

/-- `VCDiffCodeTableData::kDefaultCodeTableData` (src/codetable.cc:53-185). -/
def defaultTable : CodeTable where
  inst1 := defaultInst1
  inst2 := defaultInst2
  size1 := defaultSize1
  size2 := defaultSize2
  mode1 := defaultMode1
  mode2 := defaultMode2
  lengths := by decide +kernel

/-- `VCDiffAddressCache::DefaultLastMode()` (src/addrcache.h:89-92). -/
def defaultLastMode : Nat := 2 + 4 + 3 - 1

end Vcd
