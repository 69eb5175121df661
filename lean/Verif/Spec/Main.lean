import Verif.Model.Main
import Verif.Spec.Cli

/-! What is said of the `vcdiff` command and its files. -/

namespace Vcd.Spec
open Cli

/-- The input and the output file of a command (the empty name stands for standard input and output); none if this is no command. -/
def commandFiles (a : Args) : Option (String × String) :=
  if a.rest = ["encode"] ∨ a.rest = ["delta"] ∨ a.rest = ["test"] then some (a.target, a.delta)
  else if a.rest = ["decode"] ∨ a.rest = ["patch"] then some (a.delta, a.target)
  else none

/-- The contents of an output: standard output or a file. -/
def outputOf (s : System) (name : String) : Bytes :=
  if name = "" then s.stdout else (s.files name).getD []

/-- The file exists, and can be opened. -/
def CanOpen (t : Trouble) (s : System) (name : String) : Prop :=
  (s.files name).isSome = true ∧ t.noRead name = false ∧ t.noSeek name = false

/-- The command line makes sense. -/
def ProperUsage (a : Args) : Prop :=
  commandFiles a ≠ none ∧ a.dictionary ≠ "" ∧ a.flags.buffersize ≠ 0 ∧
    (a.rest = ["test"] → a.target ≠ "" ∧ a.delta ≠ "")

/-- The dictionary can be read, the input (if it is a file) can be opened for reading, the output (if it is a file) for writing. -/
def CanStart (t : Trouble) (s : System) (dictionary input output : String) : Prop :=
  CanOpen t s dictionary ∧ (∀ k, t.damage dictionary = some k → (s.input dictionary).length ≤ k) ∧
    (input = "" ∨ CanOpen t s input) ∧ (output = "" ∨ t.noWrite output = false)

/-- Nothing goes wrong later, and the input, if it is a file, is not empty. -/
def RunsSmoothly (t : Trouble) (s : System) (input output : String) : Prop :=
  t.damage input = none ∧ t.space output = none ∧ (input = "" ∨ s.input input ≠ [])

/-- The sizes of dictionary, target `T` and buffer are within those of the format. -/
def WithinFormat (f : Flags) (dict T : Bytes) : Prop :=
  dict.length + min f.buffersize T.length < 2 ^ 31 ∧ min f.buffersize T.length + 64 < 2 ^ 31

/-- The sizes of dictionary, target `T` and buffer are within those of the format, and within the limits that a
command with the flags `g` has for decoding. -/
def SizesFit (f g : Flags) (dict T : Bytes) : Prop :=
  dict.length + min f.buffersize T.length < 2 ^ 31 ∧ min f.buffersize T.length + 64 < 2 ^ 31 ∧
    min f.buffersize T.length ≤ (cliSettings g).maxWindow ∧ T.length ≤ (cliSettings g).maxFile

/-- The chunks are what comes of cutting something after every `n` bytes: none is empty, and only the last one may be shorter. -/
def CutEvery (n : Nat) (chunks : List Bytes) : Prop :=
  (∀ x ∈ chunks, x ≠ [] ∧ x.length ≤ n) ∧ ∀ x ∈ chunks.dropLast, x.length = n

/-- `given` has been written to the output file `name`: all of it, or as much as there was space for, if the C library held back so much of
it to the end that nothing was wrong before. -/
def Written (t : Trouble) (s : System) (name : String) (given : Bytes) : Prop :=
  outputOf s name = given ∨ ∃ k, t.space name = some k ∧ k < given.length ∧ t.passed given.length ≤ k ∧ outputOf s name = given.take k

end Vcd.Spec
