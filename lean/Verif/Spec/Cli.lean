import Verif.Model.Cli
import Verif.Spec.Decoder

/-!
# What the `vcdiff` command is expected to do
-/

namespace Vcd.Spec
open Cli

/-- The decoder limits that a command line asks for. -/
def cliSettings (f : Flags) : Settings :=
  ({} : Settings).after [.setMaxFile f.maxTargetFileSize, .setMaxWin f.maxTargetWindowSize,
    .setAllowTarget f.allowVcdTarget]

/-- The format flags that a command line asks the library for: 1 for the interleaved format, 2 for a checksum, 4 for JSON. -/
def cliFormat (f : Flags) : Nat :=
  (if f.interleaved then 1 else 0) + (if f.checksum then 2 else 0) + (if f.json then 4 else 0)

/-- An input that can be read to its end: standard input, or a file that is not empty. -/
def Readable : Input → Prop
  | .stdin _ => True
  | .file c => c ≠ []

end Vcd.Spec
