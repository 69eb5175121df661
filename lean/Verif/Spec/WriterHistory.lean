import Verif.Spec.Writer

/-!
# Histories of a code table writer

What a user of a `VCDiffCodeTableWriter` may do with it, and what is to be expected.
-/

namespace Vcd.Spec

/-- What a user does with a code table writer. The writer is told only the size of the dictionary. -/
inductive WriterAct where
  | init (dict : Bytes)
  | op (o : Op)
  | checksum (v : Nat)
  | output
  deriving DecidableEq, Repr

/-- The call for it: the result and the bytes appended to the output, and the new state. -/
def writerAct (w : Writer) : WriterAct → Except Fault ((Bool × Bytes) × Writer)
  | .init dict => (w.init dict.length).map fun r => ((r.1, []), r.2)
  | .op o => (w.call o.call).map fun r => ((true, r.1), r.2)
  | .checksum v => .ok ((true, []), w.addChecksum v)
  | .output => w.output.map fun r => ((true, r.1), r.2)

/-- A history: all results, and the last state. -/
def writerActs (w : Writer) : List WriterAct → Except Fault (List (Bool × Bytes) × Writer)
  | [] => .ok ([], w)
  | a :: as =>
    match writerAct w a with
    | .error f => .error f
    | .ok (r, w) =>
      match writerActs w as with
      | .error f => .error f
      | .ok (rs, w) => .ok (r :: rs, w)

/-- What a writer has been told: the dictionary, the instructions since the last `Output`, and the last checksum. -/
structure Told where
  dict : Bytes
  ops : List Op
  checksum : Option Nat

/-- What the instructions produce. -/
def Told.target (t : Told) : Bytes := (execOps t.dict t.ops).drop t.dict.length

/-- What it has been told after one more act; nothing (`none`) before `Init`. `Output` ends the window, but the checksum is
not forgotten: not by `Output` and not by `Init`. -/
def toldNext : Option Told → WriterAct → Option Told
  | none, .init dict => some ⟨dict, [], none⟩
  | none, _ => none
  | some t, .init dict => some { t with dict }
  | some t, .op o => some { t with ops := t.ops ++ [o] }
  | some t, .checksum v => some { t with checksum := some v }
  | some t, .output => some { t with ops := [] }

/-- After a history. -/
def toldBy (as : List WriterAct) : Option Told := as.foldl toldNext none

/-- What a user may do next: first `Init`; then anything, with instructions that make sense, a window of less than 2^31
bytes, however counted, and no `Init` in the middle of a window. -/
def MayDo : Option Told → WriterAct → Prop
  | none, .init dict => dict.length < 2 ^ 31
  | none, _ => False
  | some t, .init dict => t.ops = [] ∧ dict.length < 2 ^ 31
  | some t, .op o => 0 < o.size ∧ (∀ a n, o = .copy a n → a < t.dict.length + sizes t.ops) ∧
      t.dict.length + sizes (t.ops ++ [o]) < 2 ^ 31 ∧ sizes (t.ops ++ [o]) + 11 * (t.ops ++ [o]).length + 26 < 2 ^ 31
  | some _, .checksum v => v < 2 ^ 32
  | some _, .output => True

/-- A history in which the user does only what they may do. -/
def ProperHistory (as : List WriterAct) : Prop := ∀ pre a post, as = pre ++ a :: post → MayDo (toldBy pre) a

/-- What is to be expected from an act. `Output` after instructions appends a window that carries the last checksum, if there
was one, and stands for the bytes those instructions produce, if the checksum is right; nothing else appends anything. -/
def Expected (c : Coding) (interleaved : Bool) (t : Option Told) (a : WriterAct) (r : Bool × Bytes) : Prop :=
  r.1 = true ∧
    match t, a with
    | some t, .output =>
      if t.ops = [] then r.2 = []
      else
        Carries interleaved t.checksum r.2 ∧
        ∀ (ext : Bool) (s : Settings) (prev : Bytes), (interleaved = true ∨ t.checksum ≠ none → ext = true) →
          (∀ v, t.checksum = some v → v = adlerOf t.target) → t.target.length ≤ s.maxWindow →
          prev.length + t.target.length ≤ s.maxFile → WindowCode c ext strict s t.dict prev r.2 t.target
    | _, _ => r.2 = []

/-- The targets of the windows that are output in a history that goes on after the writer has been told `t`. -/
def windowTargets : Option Told → List WriterAct → List Bytes
  | _, [] => []
  | t, a :: as => (match t, a with
      | some t, .output => [t.target]
      | _, _ => []) ++ windowTargets (toldNext t a) as

/-- Whenever a window is output, the checksum in force, if there is one, is that of the window. -/
def ChecksumsRight (as : List WriterAct) : Prop :=
  ∀ pre post t v, as = pre ++ .output :: post → toldBy pre = some t → t.ops ≠ [] → t.checksum = some v → v = adlerOf t.target

end Vcd.Spec
