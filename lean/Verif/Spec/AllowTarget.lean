import Verif.Spec.Rfc

/-!
# Specification for C88: decoders that may, and that may not, decode windows on target data
-/

namespace Vcd.Spec
open Vcd

/-- The replies `rs` of the first decoder to the calls are the replies `rs'` of the second one, except that it may refuse chunks: if it refuses one that the
second one refuses, too, then the second one outputs nothing for it; if it refuses one that the second one accepts, then it has output a prefix of what the
second one has (and nothing is said from there on). -/
def OnlyRefuses : List DecoderCall → (rs rs' : List DecoderReply) → Prop
  | [], [], [] => True
  | c :: cs, r :: rs, r' :: rs' =>
    (r = r' ∧ OnlyRefuses cs rs rs') ∨ ∃ data, c = .chunk data ∧ r.ret = false ∧
      ((r'.ret = false ∧ r'.out = [] ∧ OnlyRefuses cs rs rs') ∨ (r'.ret = true ∧ r.out <+: r'.out))
  | _, _, _ => False

/-- The delta is a file header, windows for `front` that take nothing from target data, and a window that does, by its indicator. -/
def HasTargetWindow (s : Settings) (dict delta front : Bytes) : Prop :=
  ∃ hdr ext c ws w T rest, delta = hdr ++ ws ++ w ++ rest ∧ FileHeaderCode library hdr ext c ∧
    Windows c ext library { s with allowTarget := false } dict [] ws front ∧
    WindowCode c ext library { s with allowTarget := true } dict front w T ∧ ∃ x t, w = x :: t ∧ x &&& 3 = 2

end Vcd.Spec
