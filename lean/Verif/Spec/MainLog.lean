import Verif.Model.MainLog

/-!
# Errors of the command
-/

namespace Vcd.Cli

/-- The line is an error message of the command itself. -/
def Line.isOwn : Line → Bool
  | .own _ => true
  | _ => false

/-- The number of error messages of the command itself. -/
def errors (l : List Line) : Nat := (l.filter Line.isOwn).length

/-- If the line says that there is trouble with a file, then there is, and with that file. (The other lines are about contents or the command line.) -/
def Line.Truthful (t : Trouble) (s : System) : Line → Prop
  | .own (.opening name) => t.noRead name ∨ s.files name = none ∨ t.noWrite name
  | .own (.sizing name) => t.noSeek name
  | .own (.reading name) => ∃ k, t.damage name = some k
  | .own (.writing name) => ∃ k, t.space name = some k
  | _ => True

end Vcd.Cli
