import Verif.Vectors.Check
import Verif.Model.Encoder

/-!
# Running the library's own encoder tests on the model

Tests, not proofs; see `Verif.Vectors.Check`.
-/

namespace Vcd.Vectors

/-- What `VCDiffEngine::Encode` makes a `VCDiffCodeTableWriter` output (src/vcdiffengine_test.cc:322-334). -/
def engineOutput (dict : Bytes) (interleaved matching : Bool) (target : Bytes) : Option Bytes :=
  match Engine.init dict with
  | .ok (some e) =>
    match e.encode matching target, (Writer.new interleaved).init dict.length with
    | .ok calls, .ok (true, w) => (w.calls calls).toOption.map (·.1)
    | _, _ => none
  | _ => none

/-- The output of a complete encode, `none` if a call returns `false`. -/
def encoderOutput (dict : Bytes) (flags : Nat) (matching : Bool) (chunks : List Bytes) : Option Bytes :=
  (encode dict flags matching chunks).toOption.join

/-- The output of a `VCDiffCodeTableWriter` for some calls. -/
def writerOutput (w : Writer) (dictionarySize : Nat) (checksum : Option Nat) (calls : List CoderCall) : Option Bytes :=
  match w.init dictionarySize with
  | .ok (true, w) =>
    let w := match checksum with | some c => w.addChecksum c | none => w
    (w.calls (calls ++ [.output])).toOption.map (·.1)
  | _ => none

/-- The output of a `JSONCodeTableWriter` for some calls and `FinishEncoding`. -/
def jsonOutput (calls : List CoderCall) : Bytes :=
  let r := ({} : JsonWriter).init.calls calls
  r.1 ++ r.2.finish

/-- The instruction with number `i` of the exercise code table: NOOP, ADD, RUN and COPY with modes 0 to 4
(src/encodetable_test.cc:64-97). -/
def exerciseInst (i : Nat) : Nat × Nat := if 3 < i then (3, i - 3) else (i, 0)

/-- Column `k` of the exercise code table. -/
def exerciseColumn (k : Nat) : Bytes :=
  (List.range 256).map fun op =>
    let a := exerciseInst (op / 32)
    let b := exerciseInst (op / 4 % 8)
    let s1 := if op % 4 / 2 = 1 ∧ a.1 ≠ 0 then 255 else 0
    let s2 := if op % 2 = 1 ∧ b.1 ≠ 0 then 255 else 0
    UInt8.ofNat (match k with | 0 => a.1 | 1 => b.1 | 2 => s1 | 3 => s2 | 4 => a.2 | _ => b.2)

/-- The exercise code table. -/
def exerciseTable : CodeTable where
  inst1 := exerciseColumn 0
  inst2 := exerciseColumn 1
  size1 := exerciseColumn 2
  size2 := exerciseColumn 3
  mode1 := exerciseColumn 4
  mode2 := exerciseColumn 5
  lengths := by simp [exerciseColumn]

/-- `exercise_writer` (src/encodetable_test.cc:36-45). -/
def exerciseWriter : Writer := Writer.newCustom true 4 3 exerciseTable 4

end Vcd.Vectors
