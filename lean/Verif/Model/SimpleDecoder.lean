import Verif.Model.Decoder

/-!
# The simple interface of the decoder: `VCDiffDecoder` (src/google/vcdecoder.h:119-160, src/vcdecoder.cc:1428-1440)

The object has one member, a `VCDiffStreamingDecoder` whose settings cannot be changed; here it is a `Decoder`. The template
`Decode` only wraps the target in an `OutputString`.
-/

namespace Vcd

/-- `VCDiffDecoder::DecodeToInterface` (src/vcdecoder.cc:1428-1440): the result, what the target string contains afterwards, and
the decoder. `target->clear()` comes first, so the old contents of the target do not matter; where the target and the encoding are the
same string, see `decodeVars`. -/
def Decoder.decodeTo (d : Decoder) (dict encoding : Bytes) : Except Fault ((Bool × Bytes) × Decoder) :=
  match (d.start dict).call (.chunk encoding) with
  | .error f => .error f
  | .ok (r, d1) =>
    if r.ret = false then .ok ((false, r.out), d1)
    else .ok ((d1.finish.1, r.out), d1.finish.2)

/-- Calls of `Decode`, one after the other, with the given dictionaries and deltas. -/
def Decoder.decodeAll (d : Decoder) : List (Bytes × Bytes) → Except Fault (List (Bool × Bytes) × Decoder)
  | [] => .ok ([], d)
  | (dict, encoding) :: more =>
    match d.decodeTo dict encoding with
    | .error f => .error f
    | .ok (r, d1) =>
      match d1.decodeAll more with
      | .error f => .error f
      | .ok (rs, d2) => .ok (r :: rs, d2)

/-- The same call in a program with string variables `vars` (src/vcdecoder.cc:1432-1436): `encoding` is a reference and `target` a
pointer, so both may be the same string. Its contents are read after `target->clear()`. (If they are the same, the contents that
are read are empty, so that what is appended to the target later has no effect on them.) -/
def Decoder.decodeVars (d : Decoder) (vars : Nat → Bytes) (dict : Bytes) (encoding target : Nat) :
    Except Fault (Bool × (Nat → Bytes) × Decoder) :=
  let cleared := fun v => if v = target then [] else vars v
  match d.decodeTo dict (cleared encoding) with
  | .error f => .error f
  | .ok ((ret, out), d1) => .ok (ret, fun v => if v = target then cleared target ++ out else cleared v, d1)

end Vcd
