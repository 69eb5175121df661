import Verif.Model.Decoder

/-!
# Specification for C87: limits that are changed at any time
-/

namespace Vcd.Spec
open Vcd

/-- `SetMaximumTargetFileSize` and `SetMaximumTargetWindowSize`. -/
def setsLimit : DecoderCall → Bool
  | .setMaxFile _ => true
  | .setMaxWin _ => true
  | _ => false

/-- The calls that set no limit, with their replies. -/
def answers (cs : List DecoderCall) (rs : List DecoderReply) : List (DecoderCall × DecoderReply) :=
  (cs.zip rs).filter fun p => !setsLimit p.1

/-- The same calls got the same replies, up to the first `DecodeChunk` that only one of them refused, or that they refused at different windows. There, the
one that refused it first has output a prefix of what the other one has. -/
def AgreeUntilRefusal : List (DecoderCall × DecoderReply) → List (DecoderCall × DecoderReply) → Prop
  | [], [] => True
  | (c, r) :: as, (c', r') :: as' =>
    c = c' ∧ ((r = r' ∧ AgreeUntilRefusal as as') ∨
      ∃ data, c = .chunk data ∧ ((r.ret = false ∧ r.out <+: r'.out) ∨ (r'.ret = false ∧ r'.out <+: r.out)))
  | _, _ => False

/-- No limit on the size of the target file is set, after `limit` with `out` bytes output, that is below the one before and might be below what the windows
begun by then amount to: the output, and the rest of a window of at most 2147483647 bytes. -/
def NeverTooLow : (limit out : Nat) → List (DecoderCall × DecoderReply) → Prop
  | _, _, [] => True
  | limit, out, (.setMaxFile m, _) :: more => (limit ≤ m ∨ out + 2147483647 ≤ m) ∧ NeverTooLow m out more
  | limit, out, (_, r) :: more => NeverTooLow limit (out + r.out.length) more

/-- The last limit on the size of the target file that is set, or `m` if there is none. -/
def lastFileLimit : (m : Nat) → List DecoderCall → Nat
  | m, [] => m
  | _, .setMaxFile m :: cs => lastFileLimit m cs
  | m, _ :: cs => lastFileLimit m cs

/-- The data passed to `DecodeChunk`. -/
def chunksOf (cs : List DecoderCall) : List Bytes :=
  cs.filterMap fun
    | .chunk data => some data
    | _ => none

/-- `DecodeChunk`, or the setting of a limit. -/
def decodesOrSetsLimit (c : DecoderCall) : Prop := setsLimit c = true ∨ ∃ data, c = .chunk data

/-- The decoder after `SetMaximumTargetFileSize(SIZE_MAX)` and `SetMaximumTargetWindowSize(0x7FFFFFFF)`, the largest limits. -/
def largestLimits (d : Decoder) : Decoder := ((d.setMaxFile 18446744073709551615).2.setMaxWin 2147483647).2

end Vcd.Spec
