import Verif.Model.Encoder
import Verif.Model.Decoder

/-!
# The `vcdiff` command (src/vcdiff_main.cc)

Files are byte strings. Not modelled: failing system calls (`fopen`, `fseek`, `ferror`), the statistics
printed with `--stats`, log messages, and the parsing of the command line. A loop is given a number of turns
(`fuel`); if that is not enough the outcome is `Fault.diverge`.
-/

namespace Vcd.Cli

/-- An open `FILE` that is being read: what has not been read yet, and its end-of-file indicator. -/
structure Stream where
  rest : Bytes
  eof : Bool := false
  deriving DecidableEq, Repr

/-- `fread(buffer, 1, n, file)`: reads at most `n` bytes; sets the end-of-file indicator only when it runs
into the end of the file, that is if it returns fewer than `n` bytes. -/
def Stream.fread (s : Stream) (n : Nat) : Bytes × Stream :=
  (s.rest.take n, { rest := s.rest.drop n, eof := s.eof || decide (s.rest.length < n) })

/-- An input of the command: standard input or a regular file. -/
inductive Input where
  | stdin (content : Bytes)
  | file (content : Bytes)
  deriving DecidableEq, Repr

def Input.content : Input → Bytes
  | .stdin c => c
  | .file c => c

/-- The size of the buffer made by `OpenFileForReading` (src/vcdiff_main.cc:252-287). -/
def bufferSize (flag : Nat) : Input → Nat
  | .stdin _ => flag
  | .file c => if c.length < flag then c.length else flag

/-- The command line flags used here (src/vcdiff_main.cc:43-70). -/
structure Flags where
  allowVcdTarget : Bool := true
  buffersize : Nat := 1048576
  checksum : Bool := false
  interleaved : Bool := false
  json : Bool := false
  targetMatches : Bool := false
  maxTargetFileSize : Nat := 67108864
  maxTargetWindowSize : Nat := 67108864
  deriving DecidableEq, Repr

/-- The format flags (src/vcdiff_main.cc:391-405). -/
def Flags.format (f : Flags) : Nat :=
  (if f.interleaved then 1 else 0) ||| (if f.checksum then 2 else 0) ||| (if f.json then 4 else 0)

/-- What a command leaves behind: whether it succeeds (exit status 0), and the contents of the output
file. -/
structure Result where
  ok : Bool
  output : Bytes
  deriving DecidableEq, Repr

/-- The loop of `Encode` (src/vcdiff_main.cc:419-434). `pending` is the string `output`, `written` what has
been written to the output file. `none` for the encoder stands for `return false`. -/
def encodeLoop : Nat → Nat → Stream → Encoder → Bytes → Bytes → Except Fault (Option (Encoder × Bytes) × Bytes)
  | 0, _, _, _, _, _ => .error .diverge
  | fuel + 1, size, input, e, pending, written =>
    let written := written ++ pending
    let data := (input.fread size).1
    let input := (input.fread size).2
    if data = [] then
      if input.eof then .ok (some (e, []), written) else encodeLoop fuel size input e [] written
    else
      match e.call (.chunk data) with
      | .error f => .error f
      | .ok (r, e) =>
        if r.ret = false then .ok (none, written)
        else if input.eof then .ok (some (e, r.out), written)
        else encodeLoop fuel size input e r.out written

/-- `VCDiffFileBasedCoder::Encode` (src/vcdiff_main.cc:370-448). The writer made here is the one
`create_writer` would make for the same flags. -/
def encode (fuel : Nat) (f : Flags) (dict : Bytes) (target : Input) : Except Fault Result :=
  match Engine.init dict with
  | .error x => .error x
  | .ok none => .ok ⟨false, []⟩
  | .ok (some engine) =>
    match (Encoder.new engine f.format f.targetMatches).call .start with
    | .error x => .error x
    | .ok (r, e) =>
      if r.ret = false then .ok ⟨false, []⟩
      else
        match encodeLoop fuel (bufferSize f.buffersize target) ⟨target.content, false⟩ e r.out [] with
        | .error x => .error x
        | .ok (none, written) => .ok ⟨false, written⟩
        | .ok (some (e, pending), written) =>
          match e.call .finish with
          | .error x => .error x
          | .ok (r, _) => .ok ⟨true, written ++ (pending ++ r.out)⟩

/-- The decoder as set up by `Decode` and `DecodeAndCompare` (src/vcdiff_main.cc:459-474, 523-538): the results of
the setters are ignored. -/
def decoder (f : Flags) (dict : Bytes) : Decoder :=
  ((((({} : Decoder).setMaxFile f.maxTargetFileSize).2).setMaxWin f.maxTargetWindowSize).2.setAllowTarget
    f.allowVcdTarget).start dict

/-- The loop of `Decode` (src/vcdiff_main.cc:476-494). -/
def decodeLoop : Nat → Nat → Stream → Decoder → Bytes → Except Fault (Option Decoder × Bytes)
  | 0, _, _, _, _ => .error .diverge
  | fuel + 1, size, input, d, written =>
    let data := (input.fread size).1
    let input := (input.fread size).2
    if data = [] then
      if input.eof then .ok (some d, written) else decodeLoop fuel size input d written
    else
      match d.call (.chunk data) with
      | .error f => .error f
      | .ok (r, d) =>
        if r.ret = false then .ok (none, written)
        else if input.eof then .ok (some d, written ++ r.out)
        else decodeLoop fuel size input d (written ++ r.out)

/-- `VCDiffFileBasedCoder::Decode` (src/vcdiff_main.cc:450-512). -/
def decode (fuel : Nat) (f : Flags) (dict : Bytes) (delta : Input) : Except Fault Result :=
  match decodeLoop fuel (bufferSize f.buffersize delta) ⟨delta.content, false⟩ (decoder f dict) [] with
  | .error x => .error x
  | .ok (none, written) => .ok ⟨false, written⟩
  | .ok (some d, written) => .ok ⟨d.finish.1, written⟩

/-- `CompareOutput` (src/vcdiff_main.cc:339-368): the target file after the comparison, or `none` if it does
not go on with `output`. -/
def compareOutput (target : Stream) (output : Bytes) : Option Stream :=
  if output = [] then some target
  else
    let data := (target.fread output.length).1
    if data.length < output.length then none
    else if output = data then some (target.fread output.length).2
    else none

/-- The loop of `DecodeAndCompare` (src/vcdiff_main.cc:540-558). -/
def compareLoop : Nat → Nat → Stream → Decoder → Stream → Except Fault (Option (Decoder × Stream))
  | 0, _, _, _, _ => .error .diverge
  | fuel + 1, size, input, d, target =>
    let data := (input.fread size).1
    let input := (input.fread size).2
    if data = [] then
      if input.eof then .ok (some (d, target)) else compareLoop fuel size input d target
    else
      match d.call (.chunk data) with
      | .error f => .error f
      | .ok (r, d) =>
        if r.ret = false then .ok none
        else
          match compareOutput target r.out with
          | none => .ok none
          | some target =>
            if input.eof then .ok (some (d, target)) else compareLoop fuel size input d target

/-- `VCDiffFileBasedCoder::DecodeAndCompare` (src/vcdiff_main.cc:514-586): whether it succeeds. `fgetc`
returns a byte if there is one left. -/
def decodeAndCompare (fuel : Nat) (f : Flags) (dict delta target : Bytes) : Except Fault Bool :=
  match compareLoop fuel (bufferSize f.buffersize (.file delta)) ⟨delta, false⟩ (decoder f dict) ⟨target, false⟩ with
  | .error x => .error x
  | .ok none => .ok false
  | .ok (some (d, target)) => .ok (d.finish.1 && target.rest.isEmpty)

/-- `vcdiff test` (src/vcdiff_main.cc:629-654): whether the exit status is 0, and the delta file. -/
def test (fuel : Nat) (f : Flags) (dict target : Bytes) : Except Fault Result :=
  match encode fuel f dict (.file target) with
  | .error x => .error x
  | .ok r =>
    if r.ok = false then .ok r
    else
      match decodeAndCompare fuel f dict r.output target with
      | .error x => .error x
      | .ok ok => .ok ⟨ok, r.output⟩

end Vcd.Cli
