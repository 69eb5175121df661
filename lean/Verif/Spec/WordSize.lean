import Verif.Spec.Decoder

/-!
# Vocabulary for statements about builds with another `size_t`

Only API calls occur here.
-/

namespace Vcd.Spec

/-- Between `StartDecoding` and `FinishDecoding`, the limit on the size of the target file is not lowered. `inside`: a decode has
been started; `limit`: the present limit. -/
def LimitKept : (inside : Bool) → (limit : Nat) → List DecoderCall → Prop
  | _, _, [] => True
  | _, limit, .start _ :: cs => LimitKept true limit cs
  | _, limit, .finish :: cs => LimitKept false limit cs
  | inside, limit, .setMaxWin _ :: cs => LimitKept inside limit cs
  | inside, limit, .setMaxFile n :: cs => (inside = true → limit ≤ n) ∧ LimitKept inside n cs
  | inside, limit, .chunk _ :: cs => LimitKept inside limit cs
  | inside, limit, .setAllowTarget _ :: cs => LimitKept inside limit cs

end Vcd.Spec
