import Verif.Model.MainStats

/-!
# What the statistics should say
-/

namespace Vcd.Spec
open Cli

/-- With an original of `original` bytes and a delta of `compressed` bytes: one line with these numbers; none if the original is empty (a percentage of
nothing). -/
def statisticsOf (original compressed : Nat) : List Statistics :=
  if original = 0 then [] else [{ original, compressed }]

/-- The file named `name` is not cut by a lack of space: if there is a limit, the file is smaller. -/
def SpaceLeft (t : Trouble) (name : String) (content : Bytes) : Prop := ∀ k, t.space name = some k → content.length < k

end Vcd.Spec
