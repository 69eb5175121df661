import Verif.Spec.Varint
import Verif.Model.CodeTable

/-!
# Specification of code tables (RFC 3284, sections 5.4 and 5.6)
-/

namespace Vcd.Spec

/-- An instruction template as the RFC writes it: type, size, mode. Types: 0 NOOP, 1 ADD, 2 RUN,
3 COPY. -/
abbrev Template := Nat × Nat × Nat

/-- The NOOP template. -/
def noop : Template := (0, 0, 0)

/-- RFC 3284 section 5.6, row by row: the pairs of templates for opcodes 0 to 255 in order. -/
def rfcTable : List (Template × Template) :=
  -- 1. RUN 0
  [((2, 0, 0), noop)] ++
  -- 2. ADD 0, [1,17]
  (0 :: List.range' 1 17).map (fun sz => ((1, sz, 0), noop)) ++
  -- 3.-11. COPY 0, [4,18], modes 0..8
  (List.range 9).flatMap (fun m => (0 :: List.range' 4 15).map (fun sz => ((3, sz, m), noop))) ++
  -- 12.-17. ADD [1,4] COPY [4,6], modes 0..5
  (List.range 6).flatMap (fun m => (List.range' 1 4).flatMap (fun sz1 =>
    (List.range' 4 3).map (fun sz2 => ((1, sz1, 0), (3, sz2, m))))) ++
  -- 18.-20. ADD [1,4] COPY 4, modes 6..8
  (List.range' 6 3).flatMap (fun m => (List.range' 1 4).map (fun sz1 => ((1, sz1, 0), (3, 4, m)))) ++
  -- 21. COPY 4, modes 0..8, ADD 1
  (List.range 9).map (fun m => ((3, 4, m), (1, 1, 0)))

/-- One half of an opcode is well formed: a known type, a legal mode which is 0 unless the type is
COPY, and size 0 if it is a NOOP. -/
def HalfOk (maxMode : Nat) (h : Half) : Prop :=
  h.inst.toNat ≤ 3 ∧ h.mode.toNat ≤ maxMode ∧ (h.inst.toNat = 0 → h.size.toNat = 0) ∧
    (h.inst.toNat ≠ 3 → h.mode.toNat = 0)

/-- Some opcode expresses the single instruction `inst` with mode `mode` and an explicit size. -/
def Expressible (t : CodeTable) (inst mode : Nat) : Prop :=
  ∃ op, (t.first op).inst.toNat = inst ∧ (t.first op).size.toNat = 0 ∧
    (t.first op).mode.toNat = mode ∧ (t.second op).inst.toNat = 0

/-- A usable code table for copy modes `0 .. maxMode`. -/
def ValidTable (maxMode : Nat) (t : CodeTable) : Prop :=
  (∀ op, HalfOk maxMode (t.first op) ∧ HalfOk maxMode (t.second op)) ∧
  Expressible t 1 0 ∧ Expressible t 2 0 ∧ ∀ m ≤ maxMode, Expressible t 3 m

/-- The single instruction an opcode stands for, when its other half is a NOOP. -/
def IsSingle (t : CodeTable) (op : UInt8) (h : Half) : Prop :=
  (t.first op = h ∧ (t.second op).inst.toNat = 0) ∨
  ((t.first op).inst.toNat = 0 ∧ (t.second op).inst.toNat ≠ 0 ∧ t.second op = h)

/-- The sizes of NOOP-first opcodes fit the array allocated from the first sizes. Needed because
`FirstInstructionMap` is sized by `size1` only. -/
def SwappedSizesFit (t : CodeTable) : Prop :=
  ∀ op, (t.first op).inst.toNat = 0 → (t.second op).inst.toNat ≠ 0 →
    ∃ op', (t.second op).size.toNat ≤ (t.first op').size.toNat

end Vcd.Spec
