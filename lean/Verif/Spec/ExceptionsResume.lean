import Verif.Model.Exceptions

/-!
# Specification for C83: a caller who goes on after exceptions
-/

namespace Vcd.Spec
open Vcd

/-- A caller passes chunks to a started decoder, each once. With a chunk `(data, some k)`, operation number `k` of the call on the output string throws
(if the call has that many), and the string has then taken nothing of what it was given, as `std::string` promises; the caller goes on with the
next chunk. With `(data, none)` there is no exception. The result is what has been output, and the decoder; `none` if a call
returns false. -/
def feedThrowing (d : Decoder) : List (Bytes × Option Nat) → Option (Bytes × Decoder)
  | [] => some ([], d)
  | (data, k) :: more =>
    match k.bind (d.chunkThrow data) with
    | some d' => (feedThrowing d' more).map fun p => (appendedBefore (d.chunkOps data) (k.getD 0) 0 ++ p.1, p.2)
    | none =>
      match d.decodeChunk data with
      | .ok L nested out => (feedThrowing { top := L, nested := nested } more).map fun p => (out ++ p.1, p.2)
      | _ => none

/-- A complete decode by such a caller: `StartDecoding(dict)`, the chunks, `FinishDecoding()`; what has been output, if no call returns false. -/
def decodeThrowing (d : Decoder) (dict : Bytes) (chunks : List (Bytes × Option Nat)) : Option Bytes :=
  match feedThrowing (d.start dict) chunks with
  | some (out, d') => if d'.finish.1 then some out else none
  | none => none

end Vcd.Spec
