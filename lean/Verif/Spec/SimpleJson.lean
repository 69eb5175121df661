import Verif.Spec.Json

/-!
# What a `VCDiffEncoder` in the JSON format answers
-/

namespace Vcd.Spec

/-- The replies of a `VCDiffEncoder` in the JSON format whose dictionary is ASCII: for each `Encode` its result and what it leaves in the
output string. `items` is the text of the instructions for a target, and `used` says whether a target that is not empty has been
encoded before. -/
def jsonReplies (items : Bytes → Bytes) : (used : Bool) → List SimpleCall → List (Option (Bool × Bytes))
  | _, [] => []
  | used, .setFormatFlags _ :: cs => none :: jsonReplies items used cs
  | used, .setTargetMatching _ :: cs => none :: jsonReplies items used cs
  | used, .encode target :: cs =>
    if target.all (· < 0x80) then
      if target = [] then some (true, if used then [0x5D] else []) :: jsonReplies items used cs
      else some (true, [0x5B] ++ items target ++ [0x5D]) :: jsonReplies items true cs
    else some (false, []) :: jsonReplies items used cs

/-- The replies if every `Encode` fails and leaves nothing. -/
def refusals (cs : List SimpleCall) : List (Option (Bool × Bytes)) :=
  cs.map fun c => match c with
    | .encode _ => some (false, [])
    | _ => none

end Vcd.Spec
