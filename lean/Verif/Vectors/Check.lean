import Verif.Model.Decoder

/-!
# Running the library's own decoder tests on the model

Not proofs of any property: these definitions only serve to compare the model with the expectations written down in
the unit tests of the library, as evidence that the model is the program.
-/

namespace Vcd.Vectors

/-- `n` bytes, written as one hexadecimal number. -/
def b (n : Nat) (v : Nat) : Bytes := go n v []
where
  go : Nat → Nat → Bytes → Bytes
    | 0, _, acc => acc
    | n + 1, v, acc => go n (v / 256) (UInt8.ofNat (v % 256) :: acc)

/-- One chunk per byte. -/
def bytewise (s : Bytes) : List Bytes := s.map fun x => [x]

/-- What a test expects of the calls of `DecodeChunk` and of `FinishDecoding`. -/
inductive Verdict where
  /-- every chunk is accepted, and `FinishDecoding` returns this -/
  | accepted (finish : Bool)
  /-- the first chunk that is refused is this one -/
  | failsAt (i : Nat)
  /-- some chunk up to this one is refused -/
  | failsBy (i : Nat)
  deriving DecidableEq

/-- What a test expects of the output. -/
inductive Output where
  | any
  | exactly (s : Bytes)
  | atMost (n : Nat)

/-- A test: calls of setters, `StartDecoding`, and chunks fed up to the first that is refused. -/
structure Vector where
  setters : List DecoderCall
  dict : Bytes
  chunks : List Bytes
  verdict : Verdict
  output : Output

/-- Feeds chunks up to the first refused one: how many were accepted, the output, and the decoder if all were. -/
def feedAll (d : Decoder) : List Bytes → Nat → Bytes → Option (Nat × Bytes × Option Decoder)
  | [], n, out => some (n, out, some d)
  | c :: cs, n, out =>
    match d.decodeChunk c with
    | .ok L nested new => feedAll { top := L, nested := nested } cs (n + 1) (out ++ new)
    | .error _ new => some (n, out ++ new, none)
    | .fault _ => none

/-- Whether the model behaves as the test expects. -/
def Vector.check (v : Vector) : Bool :=
  match ({} : Decoder).calls (v.setters ++ [.start v.dict]) with
  | .error _ => false
  | .ok (_, d) =>
    match feedAll d v.chunks 0 [] with
    | none => false
    | some (n, out, d) =>
      (match v.verdict, d with
        | .accepted f, some d => d.finish.1 == f
        | .failsAt i, none => n == i
        | .failsBy i, none => n ≤ i
        | _, _ => false) &&
      (match v.output with
        | .any => true
        | .exactly s => out == s
        | .atMost k => out.length ≤ k)

end Vcd.Vectors
