import Verif.Model.Cli

/-!
# The `vcdiff` command with its files (src/vcdiff_main.cc)

Here the commands of `Model/Cli` are run on a file system, from the parsed command line to the exit status,
with the errors that operating system and C library can report. Different names stand for different
files (no links), no other process changes the files, and one command writes to only one file. Not
modelled: the parsing of the command line by gflags. The messages are modelled in `Verif.Model.MainLog`, the statistics in `Verif.Model.MainStats`.
-/

namespace Vcd.Cli

/-- What a command can see and change: the regular files by name, standard input, and what this run has
written to standard output. -/
structure System where
  files : String → Option Bytes
  stdin : Bytes := []
  stdout : Bytes := []

/-- What can go wrong, for each name of a file (the empty name stands for standard input and output): opening
for reading, `fseek`, opening for writing, reading the byte at a certain offset or a later one, writing more than a certain
number of bytes; and how the C library buffers its output: when `n` bytes have been given to
`fwrite`, it has passed on at least `passed n` of them to the operating system. -/
structure Trouble where
  noRead : String → Bool := fun _ => false
  noSeek : String → Bool := fun _ => false
  noWrite : String → Bool := fun _ => false
  damage : String → Option Nat := fun _ => none
  space : String → Option Nat := fun _ => none
  passed : Nat → Nat := fun _ => 0

/-- The contents of an input: standard input or a file. -/
def System.input (s : System) (name : String) : Bytes :=
  if name = "" then s.stdin else (s.files name).getD []

/-- Replaces the contents of an output: standard output or a file. -/
def System.put (s : System) (name : String) (content : Bytes) : System :=
  if name = "" then { s with stdout := content }
  else { s with files := fun x => if x = name then some content else s.files x }

/-- A `FILE` open for reading. -/
structure InFile where
  name : String
  offset : Nat := 0
  eof : Bool := false

/-- Some of the next `n` bytes of the file cannot be read. -/
def InFile.bad (t : Trouble) (s : System) (f : InFile) (n : Nat) : Bool :=
  match t.damage f.name with
  | none => false
  | some k => decide (k < min (f.offset + n) (s.input f.name).length)

/-- `fread(buffer, 1, n, file)`, reading what the file contains now; `none` if `ferror(file)` holds afterwards. -/
def InFile.fread (t : Trouble) (s : System) (f : InFile) (n : Nat) : Option (Bytes × InFile) :=
  if f.bad t s n then none
  else
    let data := ((s.input f.name).drop f.offset).take n
    some (data, { f with offset := f.offset + data.length, eof := f.eof || decide (data.length < n) })

/-- A `FILE` open for writing: all that has been given to `fwrite`, and how much of it the C library has passed on. -/
structure OutFile where
  name : String
  given : Bytes := []
  passed : Nat := 0

/-- The contents of the file itself. -/
def OutFile.disk (t : Trouble) (f : OutFile) : Bytes :=
  match t.space f.name with
  | none => f.given.take f.passed
  | some k => f.given.take (min f.passed k)

/-- The operating system did not take all that was passed on, so that `ferror(file)` holds. -/
def OutFile.full (t : Trouble) (f : OutFile) : Bool :=
  match t.space f.name with
  | none => false
  | some k => decide (k < f.passed)

/-- `WriteOutput` (src/vcdiff_main.cc:323-337): the files afterwards, and whether it succeeds. -/
def writeOutput (t : Trouble) (s : System) (f : OutFile) (output : Bytes) : System × OutFile × Bool :=
  if output = [] then (s, f, true)
  else
    let given := f.given ++ output
    let f := { f with given, passed := max f.passed (min given.length (t.passed given.length)) }
    (s.put f.name (f.disk t), f, !f.full t)

/-- `fclose` in the destructor (src/vcdiff_main.cc:201-210), or at exit for standard output: the rest
is passed on; nobody looks at the result. -/
def closeOutput (t : Trouble) (s : System) (f : OutFile) : System :=
  s.put f.name ({ f with passed := f.given.length }.disk t)

/-- `OpenDictionary` (src/vcdiff_main.cc:224-250), with `FileSize` (212-222). -/
def openDictionary (t : Trouble) (s : System) (name : String) : Option Bytes :=
  if t.noRead name then none
  else
    match s.files name with
    | none => none
    | some content =>
      if t.noSeek name then none
      else
        match t.damage name with
        | none => some content
        | some k => if k < content.length then none else some content

/-- `OpenFileForReading` (src/vcdiff_main.cc:252-287): the file, and the size of the buffer. -/
def openForReading (t : Trouble) (s : System) (flag : Nat) (name : String) : Option (InFile × Nat) :=
  if name = "" then some ({ name }, flag)
  else if t.noRead name then none
  else
    match s.files name with
    | none => none
    | some content =>
      if t.noSeek name then none else some ({ name }, if content.length < flag then content.length else flag)

/-- `OpenOutputFile` (src/vcdiff_main.cc:294-310): a file is created, or cut to length 0. -/
def openOutput (t : Trouble) (s : System) (name : String) : Option (System × OutFile) :=
  if name = "" then some (s, { name })
  else if t.noWrite name then none
  else some (s.put name [], { name })

/-- The state of one of the loops: `pending` is the string `output`. -/
structure Stage (σ : Type) where
  sys : System
  input : InFile
  coder : σ
  pending : Bytes
  out : OutFile

/-- What comes of a turn of a loop: it goes on, it has ended, or the function returns false. -/
inductive Turn (σ : Type) where
  | next (st : Stage σ)
  | last (st : Stage σ)
  | fail (st : Stage σ)

def Turn.stage {σ : Type} : Turn σ → Stage σ
  | .next st => st
  | .last st => st
  | .fail st => st

/-- Makes at most `n` turns. -/
def turns {σ : Type} (turn : Stage σ → Except Fault (Turn σ)) : Nat → Stage σ → Except Fault (Turn σ)
  | 0, st => .ok (.next st)
  | n + 1, st =>
    match turn st with
    | .error f => .error f
    | .ok (.next st) => turns turn n st
    | .ok r => .ok r

/-- The end of a turn: `while (!feof(input_file_))`. -/
def Stage.again {σ : Type} (st : Stage σ) : Turn σ := if st.input.eof then .last st else .next st

/-- A turn of the loop of `Encode` (src/vcdiff_main.cc:419-434), with `ReadInput` (312-321). -/
def encodeTurn (t : Trouble) (size : Nat) (st : Stage Encoder) : Except Fault (Turn Encoder) :=
  match writeOutput t st.sys st.out st.pending with
  | (sys, out, ok) =>
    let st := { st with sys, out }
    if ok = false then .ok (.fail st)
    else
      match st.input.fread t sys size with
      | none => .ok (.fail st)
      | some (data, input) =>
        let st := { st with input, pending := [] }
        if data = [] then .ok st.again
        else
          match st.coder.call (.chunk data) with
          | .error f => .error f
          | .ok (r, coder) =>
            if r.ret = false then .ok (.fail st)
            else .ok { st with coder, pending := r.out }.again

/-- A turn of the loop of `Decode` (src/vcdiff_main.cc:476-494). The string `output` is empty between the turns. -/
def decodeTurn (t : Trouble) (size : Nat) (st : Stage Decoder) : Except Fault (Turn Decoder) :=
  match st.input.fread t st.sys size with
  | none => .ok (.fail st)
  | some (data, input) =>
    let st := { st with input }
    if data = [] then .ok st.again
    else
      match st.coder.call (.chunk data) with
      | .error f => .error f
      | .ok (r, coder) =>
        let st := { st with coder }
        if r.ret = false then .ok (.fail st)
        else
          match writeOutput t st.sys st.out r.out with
          | (sys, out, ok) =>
            let st := { st with sys, out }
            if ok = false then .ok (.fail st) else .ok st.again

/-- `CompareOutput` (src/vcdiff_main.cc:339-368). -/
def compareFile (t : Trouble) (s : System) (target : InFile) (output : Bytes) : Option InFile :=
  if output = [] then some target
  else
    match target.fread t s output.length with
    | none => none
    | some (data, target) =>
      if data.length < output.length then none
      else if output = data then some target
      else none

/-- A turn of the loop of `DecodeAndCompare` (src/vcdiff_main.cc:540-558). `out` is not used. -/
def compareTurn (t : Trouble) (size : Nat) (st : Stage (Decoder × InFile)) : Except Fault (Turn (Decoder × InFile)) :=
  match st.input.fread t st.sys size with
  | none => .ok (.fail st)
  | some (data, input) =>
    let st := { st with input }
    if data = [] then .ok st.again
    else
      match st.coder.1.call (.chunk data) with
      | .error f => .error f
      | .ok (r, d) =>
        if r.ret = false then .ok (.fail st)
        else
          match compareFile t st.sys st.coder.2 r.out with
          | none => .ok (.fail st)
          | some target => .ok { st with coder := (d, target) }.again

/-- How a command stands: its exit status, or `none` if it is still running, and the files. -/
structure Run where
  status : Option Nat
  sys : System

/-- The command line as gflags has parsed it: the arguments that are no flags, and the flags. -/
structure Args where
  rest : List String
  dictionary : String := ""
  target : String := ""
  delta : String := ""
  flags : Flags := {}

/-- `OpenDictionary() && OpenInputFile() && OpenOutputFile()` (src/vcdiff_main.cc:375-377, 455-457). -/
def openFiles (t : Trouble) (s : System) (flag : Nat) (dictionary input output : String) :
    Option (Bytes × InFile × Nat × System × OutFile) :=
  match openDictionary t s dictionary with
  | none => none
  | some dict =>
    match openForReading t s flag input with
    | none => none
    | some (file, size) =>
      match openOutput t s output with
      | none => none
      | some (sys, out) => some (dict, file, size, sys, out)

/-- The rest of `Encode` after the loop (src/vcdiff_main.cc:435-448), and the destructor (201-210). The result of
`FinishEncoding` is ignored there, too. -/
def endEncode (t : Trouble) : Turn Encoder → Except Fault Run
  | .next st => .ok ⟨none, st.sys⟩
  | .fail st => .ok ⟨some 1, closeOutput t st.sys st.out⟩
  | .last st =>
    match st.coder.call .finish with
    | .error f => .error f
    | .ok (r, _) =>
      match writeOutput t st.sys st.out (st.pending ++ r.out) with
      | (sys, out, ok) => .ok ⟨if ok then some 0 else some 1, closeOutput t sys out⟩

/-- `VCDiffFileBasedCoder::Encode` and the destructor (src/vcdiff_main.cc:370-448, 201-210), for at most `n` turns of the loop. -/
def runEncode (n : Nat) (t : Trouble) (a : Args) (s : System) : Except Fault Run :=
  match openFiles t s a.flags.buffersize a.dictionary a.target a.delta with
  | none => .ok ⟨some 1, s⟩
  | some (dict, input, size, sys, out) =>
    match Engine.init dict with
    | .error f => .error f
    | .ok none => .ok ⟨some 1, closeOutput t sys out⟩
    | .ok (some engine) =>
      match (Encoder.new engine a.flags.format a.flags.targetMatches).call .start with
      | .error f => .error f
      | .ok (r, coder) =>
        if r.ret = false then .ok ⟨some 1, closeOutput t sys out⟩
        else
          match turns (encodeTurn t size) n { sys, input, coder, pending := r.out, out } with
          | .error f => .error f
          | .ok r => endEncode t r

/-- The rest of `Decode` after the loop (src/vcdiff_main.cc:495-512), and the destructor (201-210). -/
def endDecode (t : Trouble) : Turn Decoder → Run
  | .next st => ⟨none, st.sys⟩
  | .fail st => ⟨some 1, closeOutput t st.sys st.out⟩
  | .last st => ⟨if st.coder.finish.1 then some 0 else some 1, closeOutput t st.sys st.out⟩

/-- `VCDiffFileBasedCoder::Decode` and the destructor (src/vcdiff_main.cc:450-512, 201-210). -/
def runDecode (n : Nat) (t : Trouble) (a : Args) (s : System) : Except Fault Run :=
  match openFiles t s a.flags.buffersize a.dictionary a.delta a.target with
  | none => .ok ⟨some 1, s⟩
  | some (dict, input, size, sys, out) =>
    match turns (decodeTurn t size) n { sys, input, coder := decoder a.flags dict, pending := [], out } with
    | .error f => .error f
    | .ok r => .ok (endDecode t r)

/-- The rest of `DecodeAndCompare` after the loop (src/vcdiff_main.cc:559-586). `fgetc` is a read of one byte. -/
def endCompare (t : Trouble) (s : System) : Turn (Decoder × InFile) → Run
  | .next _ => ⟨none, s⟩
  | .fail _ => ⟨some 1, s⟩
  | .last st =>
    if st.coder.1.finish.1 = false then ⟨some 1, s⟩
    else
      match st.coder.2.fread t s 1 with
      | none => ⟨some 1, s⟩
      | some (data, _) => ⟨if data = [] then some 0 else some 1, s⟩

/-- `VCDiffFileBasedCoder::DecodeAndCompare` (src/vcdiff_main.cc:514-586). -/
def runCompare (n : Nat) (t : Trouble) (a : Args) (s : System) : Except Fault Run :=
  match openDictionary t s a.dictionary with
  | none => .ok ⟨some 1, s⟩
  | some dict =>
    match openForReading t s a.flags.buffersize a.delta with
    | none => .ok ⟨some 1, s⟩
    | some (input, size) =>
      match openForReading t s a.flags.buffersize a.target with
      | none => .ok ⟨some 1, s⟩
      | some (target, _) =>
        match turns (compareTurn t size) n
            { sys := s, input, coder := (decoder a.flags dict, target), pending := [], out := { name := "" } } with
        | .error f => .error f
        | .ok r => .ok (endCompare t s r)

/-- `main` (src/vcdiff_main.cc:589-661), with at most `n` turns of each loop. `rest` is what is left of
`argv` after `argv[0]`. A buffer size of 0 is never the default one, so it was given by the user (605). -/
def main (n : Nat) (t : Trouble) (a : Args) (s : System) : Except Fault Run :=
  let s := { s with stdout := [] }
  match a.rest with
  | [command] =>
    if a.dictionary = "" then .ok ⟨some 1, s⟩
    else if a.flags.buffersize = 0 then .ok ⟨some 1, s⟩
    else if command = "encode" ∨ command = "delta" then runEncode n t a s
    else if command = "decode" ∨ command = "patch" then runDecode n t a s
    else if command = "test" then
      if a.target = "" ∨ a.delta = "" then .ok ⟨some 1, s⟩
      else
        match runEncode n t a s with
        | .error f => .error f
        | .ok r => if r.status = some 0 then runCompare n t a r.sys else .ok r
    else .ok ⟨some 1, s⟩
  | _ => .ok ⟨some 1, s⟩

end Vcd.Cli
