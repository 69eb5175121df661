import Verif.Model.CodeTable

/-!
# The instruction map used by the encoder (src/instruction_map.h, src/instruction_map.cc)

The arrays `first_opcodes_[inst + mode][size]` and `second_opcodes_[opcode][inst + mode][size]` are
modelled by association lists from index tuples to opcodes (an absent key is `kNoOpcode`), together
with the array bounds, which are checked explicitly at every access.
-/

namespace Vcd

/-- Value of a key in an association list. -/
def assoc {K : Type} [DecidableEq K] (l : List (K × UInt8)) (k : K) : Option UInt8 :=
  (l.find? (fun p => p.1 = k)).map Prod.snd

/-- `FindMaxSize` (src/instruction_map.cc:36-45): the greatest element of an array (of 256
elements; starting from 0 instead of the first element makes no difference). -/
def findMaxSize (sizes : Bytes) : Nat :=
  sizes.foldl (fun m s => if s.toNat > m then s.toNat else m) 0

/-- `FirstInstructionMap` (src/instruction_map.h:91-153). -/
structure FirstMap where
  /-- `num_instruction_type_modes_`, the bound of the first index -/
  numTypeModes : Nat
  /-- `max_size_1_`; the bound of the second index is one more -/
  maxSize : Nat
  entries : List ((Nat × Nat) × UInt8)
  deriving DecidableEq, Repr

/-- `FirstInstructionMap::Add` (src/instruction_map.h:96-104). `none`: index out of bounds. -/
def FirstMap.add (m : FirstMap) (h : Half) (op : UInt8) : Option FirstMap :=
  if h.inst.toNat + h.mode.toNat < m.numTypeModes ∧ h.size.toNat ≤ m.maxSize then
    match assoc m.entries (h.inst.toNat + h.mode.toNat, h.size.toNat) with
    | some _ => some m
    | none => some { m with
        entries := m.entries ++ [((h.inst.toNat + h.mode.toNat, h.size.toNat), op)] }
  else none

/-- Result of a lookup: `found none` is `kNoOpcode`. -/
inductive Lookup where
  | found (op : Option UInt8)
  | fault
  deriving DecidableEq, Repr

/-- `(inst == VCD_COPY) ? (inst + mode) : inst` (src/instruction_map.h:111,
src/instruction_map.cc:139). -/
def instMode (inst : UInt8) (mode : Nat) : Nat :=
  if inst = vcdCopy then inst.toNat + mode else inst.toNat

/-- `FirstInstructionMap::Lookup` (src/instruction_map.h:108-117). `size` is an `unsigned char`. -/
def FirstMap.lookup (m : FirstMap) (inst : UInt8) (size : Nat) (mode : Nat) : Lookup :=
  if size > m.maxSize then .found none
  else if instMode inst mode < m.numTypeModes then
    .found (assoc m.entries (instMode inst mode, size))
  else .fault

/-- `SecondInstructionMap` (src/instruction_map.h:157-196). -/
structure SecondMap where
  numTypeModes : Nat
  maxSize : Nat
  /-- the first opcodes whose `second_opcodes_` element is not NULL -/
  present : List UInt8
  entries : List ((UInt8 × Nat × Nat) × UInt8)
  deriving DecidableEq, Repr

/-- `SecondInstructionMap::Add` (src/instruction_map.cc:102-124). -/
def SecondMap.add (m : SecondMap) (firstOp : UInt8) (h : Half) (op : UInt8) : Option SecondMap :=
  if h.inst.toNat + h.mode.toNat < m.numTypeModes ∧ h.size.toNat ≤ m.maxSize then
    match assoc m.entries (firstOp, h.inst.toNat + h.mode.toNat, h.size.toNat) with
    | some _ => some { m with present := firstOp :: m.present }
    | none => some { m with
        present := firstOp :: m.present,
        entries := m.entries ++ [((firstOp, h.inst.toNat + h.mode.toNat, h.size.toNat), op)] }
  else none

/-- `SecondInstructionMap::Lookup` (src/instruction_map.cc:126-145). -/
def SecondMap.lookup (m : SecondMap) (firstOp : UInt8) (inst : UInt8) (size : Nat) (mode : Nat) :
    Lookup :=
  if size > m.maxSize then .found none
  else if m.present.contains firstOp then
    if instMode inst mode < m.numTypeModes then
      .found (assoc m.entries (firstOp, instMode inst mode, size))
    else .fault
  else .found none

/-- `VCDiffInstructionMap` (src/instruction_map.h:39-203). -/
structure InstructionMap where
  firstMap : FirstMap
  secondMap : SecondMap
  deriving DecidableEq, Repr

/-- Body of the first pass of the constructor (src/instruction_map.cc:158-176). -/
def firstPass (t : CodeTable) (m : FirstMap) (op : UInt8) : Option FirstMap :=
  if (t.second op).inst = vcdNoop then m.add (t.first op) op
  else if (t.first op).inst = vcdNoop then m.add (t.second op) op
  else some m

/-- Body of the second pass of the constructor (src/instruction_map.cc:178-193). -/
def secondPass (t : CodeTable) (fm : FirstMap) (m : SecondMap) (op : UInt8) : Option SecondMap :=
  if (t.first op).inst ≠ vcdNoop ∧ (t.second op).inst ≠ vcdNoop then
    match fm.lookup (t.first op).inst (t.first op).size.toNat (t.first op).mode.toNat with
    | .fault => none
    | .found none => some m
    | .found (some single) => m.add single (t.second op) op
  else some m

/-- `VCDiffInstructionMap::VCDiffInstructionMap` (src/instruction_map.cc:150-194). `none`: an array
access out of bounds. -/
def InstructionMap.build (t : CodeTable) (maxMode : Nat) : Option InstructionMap :=
  match allOpcodes.foldlM (firstPass t)
      { numTypeModes := 3 + maxMode + 1, maxSize := findMaxSize t.size1, entries := [] } with
  | none => none
  | some fm =>
    match allOpcodes.foldlM (secondPass t fm)
        { numTypeModes := 3 + maxMode + 1, maxSize := findMaxSize t.size2,
          present := [], entries := [] } with
    | none => none
    | some sm => some ⟨fm, sm⟩

/-- `VCDiffInstructionMap::GetDefaultInstructionMap` (src/instruction_map.cc:27-34). -/
def defaultMap : Option InstructionMap := InstructionMap.build defaultTable defaultLastMode

end Vcd
