import Verif.Spec.Debug

/-!
# The file that a decoder is in the middle of
-/

namespace Vcd.Spec

/-- What one more call with this reply does to the pair of whether a file is being decoded and what has been passed of it. -/
def fileStep (a : Bool × Bytes) : DecoderCall × DecoderReply → Bool × Bytes
  | (.start _, _) => if a.1 then a else (true, [])
  | (.chunk data, r) => if a.1 && r.ret then (true, a.2 ++ data) else (false, [])
  | (.finish, _) => (false, [])
  | _ => a

/-- The bytes, of the file that is being decoded after these calls with these replies, that have been passed to `DecodeChunk`. -/
def fileSoFar (h : List (DecoderCall × DecoderReply)) : Bytes := (h.foldl fileStep (false, [])).2

end Vcd.Spec
