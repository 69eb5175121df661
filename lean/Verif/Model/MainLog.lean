import Verif.Model.Main
import Verif.Model.Log
import Verif.Model.EncoderLog

/-!
# What the `vcdiff` command writes to standard error (src/vcdiff_main.cc)

The functions follow those of `Verif.Model.Main`, and list the lines written on the way: the command's own and those of the library. Not modelled: the
texts, the usage that gflags prints after some of the errors, and the statistics (`--stats`), for which see `Verif.Model.MainStats`.
-/

namespace Vcd.Cli

/-- The error messages of src/vcdiff_main.cc. -/
inductive CommandError where
  /-- :596 -/
  | oneCommand
  /-- :603 -/
  | needDictionary
  /-- :610 -/
  | bufferSize
  /-- :637 -/
  | needFiles
  /-- :657 -/
  | unknownCommand
  /-- :227, :268, :303 -/
  | opening (name : String)
  /-- :233, :275 -/
  | sizing (name : String)
  /-- :241, :316, :352 -/
  | reading (name : String)
  /-- :330 -/
  | writing (name : String)
  /-- :388 -/
  | hashing
  /-- :415 -/
  | starting
  /-- :429 -/
  | encoding
  /-- :484, :548 -/
  | decoding
  /-- :496, :560 -/
  | incomplete
  /-- :357 -/
  | longer
  /-- :362 -/
  | different
  /-- :570 -/
  | shorter
  /-- :575 -/
  | ending
  deriving DecidableEq, Repr

/-- A line on standard error. -/
inductive Line where
  | own (e : CommandError)
  | decoder (m : Message)
  | encoder (m : EncoderMessage)
  deriving DecidableEq, Repr

/-- `OpenDictionary` (src/vcdiff_main.cc:224-250). -/
def openDictionaryLog (t : Trouble) (s : System) (name : String) : List Line :=
  if t.noRead name then [.own (.opening name)]
  else
    match s.files name with
    | none => [.own (.opening name)]
    | some content =>
      if t.noSeek name then [.own (.sizing name)]
      else
        match t.damage name with
        | none => []
        | some k => if k < content.length then [.own (.reading name)] else []

/-- `OpenFileForReading` (src/vcdiff_main.cc:252-287). -/
def openForReadingLog (t : Trouble) (s : System) (name : String) : List Line :=
  if name = "" then []
  else if t.noRead name then [.own (.opening name)]
  else
    match s.files name with
    | none => [.own (.opening name)]
    | some _ => if t.noSeek name then [.own (.sizing name)] else []

/-- `OpenOutputFile` (src/vcdiff_main.cc:294-310). -/
def openOutputLog (t : Trouble) (name : String) : List Line :=
  if name = "" then []
  else if t.noWrite name then [.own (.opening name)]
  else []

/-- `OpenDictionary() && OpenInputFile() && OpenOutputFile()` (src/vcdiff_main.cc:375-377, 455-457). -/
def openFilesLog (t : Trouble) (s : System) (flag : Nat) (dictionary input output : String) : List Line :=
  openDictionaryLog t s dictionary ++
    match openDictionary t s dictionary with
    | none => []
    | some _ =>
      openForReadingLog t s input ++
        match openForReading t s flag input with
        | none => []
        | some _ => openOutputLog t output

/-- The lines of at most `n` turns, given those of one. -/
def turnsLog {σ : Type} (turn : Stage σ → Except Fault (Turn σ)) (log : Stage σ → List Line) : Nat → Stage σ → List Line
  | 0, _ => []
  | n + 1, st =>
    log st ++
      match turn st with
      | .ok (.next st) => turnsLog turn log n st
      | _ => []

/-- A turn of the loop of `Encode` (src/vcdiff_main.cc:419-434), with `WriteOutput` (323-337) and `ReadInput` (312-321). -/
def encodeTurnLog (t : Trouble) (size : Nat) (st : Stage Encoder) : List Line :=
  match writeOutput t st.sys st.out st.pending with
  | (sys, _, ok) =>
    if ok = false then [.own (.writing st.out.name)]
    else
      match st.input.fread t sys size with
      | none => [.own (.reading st.input.name)]
      | some (data, _) =>
        if data = [] then []
        else
          (st.coder.callLog (.chunk data)).map .encoder ++
            match st.coder.call (.chunk data) with
            | .error _ => []
            | .ok (r, _) => if r.ret = false then [.own .encoding] else []

/-- A turn of the loop of `Decode` (src/vcdiff_main.cc:476-494). -/
def decodeTurnLog (t : Trouble) (size : Nat) (st : Stage Decoder) : List Line :=
  match st.input.fread t st.sys size with
  | none => [.own (.reading st.input.name)]
  | some (data, _) =>
    if data = [] then []
    else
      (st.coder.callLog (.chunk data)).map .decoder ++
        match st.coder.call (.chunk data) with
        | .error _ => []
        | .ok (r, _) =>
          if r.ret = false then [.own .decoding]
          else if (writeOutput t st.sys st.out r.out).2.2 = false then [.own (.writing st.out.name)] else []

/-- `CompareOutput` (src/vcdiff_main.cc:339-368). -/
def compareFileLog (t : Trouble) (s : System) (target : InFile) (output : Bytes) : List Line :=
  if output = [] then []
  else
    match target.fread t s output.length with
    | none => [.own (.reading target.name)]
    | some (data, _) =>
      if data.length < output.length then [.own .longer]
      else if output = data then []
      else [.own .different]

/-- A turn of the loop of `DecodeAndCompare` (src/vcdiff_main.cc:540-558). -/
def compareTurnLog (t : Trouble) (size : Nat) (st : Stage (Decoder × InFile)) : List Line :=
  match st.input.fread t st.sys size with
  | none => [.own (.reading st.input.name)]
  | some (data, _) =>
    if data = [] then []
    else
      (st.coder.1.callLog (.chunk data)).map .decoder ++
        match st.coder.1.call (.chunk data) with
        | .error _ => []
        | .ok (r, _) => if r.ret = false then [.own .decoding] else compareFileLog t st.sys st.coder.2 r.out

/-- The rest of `Encode` after the loop (src/vcdiff_main.cc:435-448); the result of `FinishEncoding` is ignored, not its messages. -/
def endEncodeLog (t : Trouble) : Turn Encoder → List Line
  | .next _ => []
  | .fail _ => []
  | .last st =>
    (st.coder.callLog .finish).map .encoder ++
      match st.coder.call .finish with
      | .error _ => []
      | .ok (r, _) => if (writeOutput t st.sys st.out (st.pending ++ r.out)).2.2 = false then [.own (.writing st.out.name)] else []

/-- `Encode` (src/vcdiff_main.cc:370-448). -/
def runEncodeLog (n : Nat) (t : Trouble) (a : Args) (s : System) : List Line :=
  openFilesLog t s a.flags.buffersize a.dictionary a.target a.delta ++
    match openFiles t s a.flags.buffersize a.dictionary a.target a.delta with
    | none => []
    | some (dict, input, size, sys, out) =>
      match Engine.init dict with
      | .error _ => []
      | .ok none => [.own .hashing]
      | .ok (some engine) =>
        ((Encoder.new engine a.flags.format a.flags.targetMatches).callLog .start).map .encoder ++
          match (Encoder.new engine a.flags.format a.flags.targetMatches).call .start with
          | .error _ => []
          | .ok (r, coder) =>
            if r.ret = false then [.own .starting]
            else
              turnsLog (encodeTurn t size) (encodeTurnLog t size) n { sys, input, coder, pending := r.out, out } ++
                match turns (encodeTurn t size) n { sys, input, coder, pending := r.out, out } with
                | .error _ => []
                | .ok r => endEncodeLog t r

/-- The rest of `Decode` after the loop (src/vcdiff_main.cc:495-512). The string `output` is empty by then. -/
def endDecodeLog : Turn Decoder → List Line
  | .next _ => []
  | .fail _ => []
  | .last st => (st.coder.callLog .finish).map .decoder ++ (if st.coder.finish.1 then [] else [.own .incomplete])

/-- The calls that set up the decoder (src/vcdiff_main.cc:459-474, 524-538): the messages of the limits that are refused, and of `StartDecoding`. -/
def decoderLog (f : Flags) (dict : Bytes) : List Line :=
  (Decoder.callsLog {} [.setMaxFile f.maxTargetFileSize, .setMaxWin f.maxTargetWindowSize, .setAllowTarget f.allowVcdTarget, .start dict]).map .decoder

/-- `Decode` (src/vcdiff_main.cc:450-512). -/
def runDecodeLog (n : Nat) (t : Trouble) (a : Args) (s : System) : List Line :=
  openFilesLog t s a.flags.buffersize a.dictionary a.delta a.target ++
    match openFiles t s a.flags.buffersize a.dictionary a.delta a.target with
    | none => []
    | some (dict, input, size, sys, out) =>
      decoderLog a.flags dict ++
        (turnsLog (decodeTurn t size) (decodeTurnLog t size) n { sys, input, coder := decoder a.flags dict, pending := [], out } ++
          match turns (decodeTurn t size) n { sys, input, coder := decoder a.flags dict, pending := [], out } with
          | .error _ => []
          | .ok r => endDecodeLog r)

/-- The rest of `DecodeAndCompare` after the loop (src/vcdiff_main.cc:559-586). -/
def endCompareLog (t : Trouble) (s : System) : Turn (Decoder × InFile) → List Line
  | .next _ => []
  | .fail _ => []
  | .last st =>
    (st.coder.1.callLog .finish).map .decoder ++
      if st.coder.1.finish.1 = false then [.own .incomplete]
      else
        match st.coder.2.fread t s 1 with
        | none => [.own .ending]
        | some (data, _) => if data = [] then [] else [.own .shorter]

/-- `DecodeAndCompare` (src/vcdiff_main.cc:514-586). -/
def runCompareLog (n : Nat) (t : Trouble) (a : Args) (s : System) : List Line :=
  openDictionaryLog t s a.dictionary ++
    match openDictionary t s a.dictionary with
    | none => []
    | some dict =>
      openForReadingLog t s a.delta ++
        match openForReading t s a.flags.buffersize a.delta with
        | none => []
        | some (input, size) =>
          openForReadingLog t s a.target ++
            match openForReading t s a.flags.buffersize a.target with
            | none => []
            | some (target, _) =>
              decoderLog a.flags dict ++
                (turnsLog (compareTurn t size) (compareTurnLog t size) n
                    { sys := s, input, coder := (decoder a.flags dict, target), pending := [], out := { name := "" } } ++
                  match turns (compareTurn t size) n
                      { sys := s, input, coder := (decoder a.flags dict, target), pending := [], out := { name := "" } } with
                  | .error _ => []
                  | .ok r => endCompareLog t s r)

/-- `main` (src/vcdiff_main.cc:589-661). -/
def mainLog (n : Nat) (t : Trouble) (a : Args) (s : System) : List Line :=
  let s := { s with stdout := [] }
  match a.rest with
  | [command] =>
    if a.dictionary = "" then [.own .needDictionary]
    else if a.flags.buffersize = 0 then [.own .bufferSize]
    else if command = "encode" ∨ command = "delta" then runEncodeLog n t a s
    else if command = "decode" ∨ command = "patch" then runDecodeLog n t a s
    else if command = "test" then
      if a.target = "" ∨ a.delta = "" then [.own .needFiles]
      else
        runEncodeLog n t a s ++
          match runEncode n t a s with
          | .error _ => []
          | .ok r => if r.status = some 0 then runCompareLog n t a r.sys else []
    else [.own .unknownCommand]
  | _ => [.own .oneCommand]

end Vcd.Cli
