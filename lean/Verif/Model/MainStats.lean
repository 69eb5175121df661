import Verif.Model.Main

/-!
# The statistics of the `vcdiff` command (`--stats`, src/vcdiff_main.cc)

The functions follow those of `Verif.Model.Main`, and compute the variables `input_size` and `output_size` (64-bit `size_t`, so sums wrap around) and the
lines that are written with `--stats`. Without `--stats` there are none. Not modelled: the percentage, which is computed with
floating-point numbers, and the texts.
-/

namespace Vcd.Cli

/-- The variables `input_size` and `output_size` (src/vcdiff_main.cc:410-411, 466-467, 530-531). -/
structure Counters where
  input : Nat := 0
  output : Nat := 0
  deriving DecidableEq, Repr

/-- `input_size += n` for a `size_t`. -/
def Counters.read (c : Counters) (n : Nat) : Counters := { c with input := (c.input + n) % 2 ^ 64 }

/-- `output_size += n` for a `size_t`. -/
def Counters.written (c : Counters) (n : Nat) : Counters := { c with output := (c.output + n) % 2 ^ 64 }

/-- A line of statistics: the size of the original (target) and the compressed size (src/vcdiff_main.cc:441-446, 505-510, 579-584). -/
structure Statistics where
  original : Nat
  compressed : Nat
  deriving DecidableEq, Repr

/-- The variables after at most `n` turns, given how one turn changes them. -/
def turnsCount {σ : Type} (turn : Stage σ → Except Fault (Turn σ)) (count : Stage σ → Counters → Counters) : Nat → Stage σ → Counters → Counters
  | 0, _, c => c
  | n + 1, st, c =>
    match turn st with
    | .ok (.next st') => turnsCount turn count n st' (count st c)
    | _ => count st c

/-- A turn of the loop of `Encode` (src/vcdiff_main.cc:419-434): `output_size += output.size()` once the output is written and the next input is
read, and `input_size += bytes_read`. -/
def encodeTurnCount (t : Trouble) (size : Nat) (st : Stage Encoder) (c : Counters) : Counters :=
  match writeOutput t st.sys st.out st.pending with
  | (sys, _, ok) =>
    if ok = false then c
    else
      match st.input.fread t sys size with
      | none => c
      | some (data, _) =>
        let c := c.written st.pending.length
        if data = [] then c else c.read data.length

/-- A turn of the loop of `Decode` (src/vcdiff_main.cc:476-494). -/
def decodeTurnCount (t : Trouble) (size : Nat) (st : Stage Decoder) (c : Counters) : Counters :=
  match st.input.fread t st.sys size with
  | none => c
  | some (data, _) =>
    if data = [] then c.written 0
    else
      let c := c.read data.length
      match st.coder.call (.chunk data) with
      | .error _ => c
      | .ok (r, _) =>
        if r.ret = false then c
        else if (writeOutput t st.sys st.out r.out).2.2 = false then c else c.written r.out.length

/-- A turn of the loop of `DecodeAndCompare` (src/vcdiff_main.cc:540-558). -/
def compareTurnCount (t : Trouble) (size : Nat) (st : Stage (Decoder × InFile)) (c : Counters) : Counters :=
  match st.input.fread t st.sys size with
  | none => c
  | some (data, _) =>
    if data = [] then c.written 0
    else
      let c := c.read data.length
      match st.coder.1.call (.chunk data) with
      | .error _ => c
      | .ok (r, _) =>
        if r.ret = false then c
        else
          match compareFile t st.sys st.coder.2 r.out with
          | none => c
          | some _ => c.written r.out.length

/-- The rest of `Encode` after the loop (src/vcdiff_main.cc:435-448). -/
def endEncodeStats (t : Trouble) (c : Counters) : Turn Encoder → List Statistics
  | .next _ => []
  | .fail _ => []
  | .last st =>
    match st.coder.call .finish with
    | .error _ => []
    | .ok (r, _) =>
      if (writeOutput t st.sys st.out (st.pending ++ r.out)).2.2 = false then []
      else
        let c := c.written (st.pending ++ r.out).length
        if 0 < c.input then [{ original := c.input, compressed := c.output }] else []

/-- `Encode` (src/vcdiff_main.cc:370-448). -/
def runEncodeStats (n : Nat) (t : Trouble) (a : Args) (s : System) : List Statistics :=
  match openFiles t s a.flags.buffersize a.dictionary a.target a.delta with
  | none => []
  | some (dict, input, size, sys, out) =>
    match Engine.init dict with
    | .error _ => []
    | .ok none => []
    | .ok (some engine) =>
      match (Encoder.new engine a.flags.format a.flags.targetMatches).call .start with
      | .error _ => []
      | .ok (r, coder) =>
        if r.ret = false then []
        else
          let st : Stage Encoder := { sys, input, coder, pending := r.out, out }
          match turns (encodeTurn t size) n st with
          | .error _ => []
          | .ok r => endEncodeStats t (turnsCount (encodeTurn t size) (encodeTurnCount t size) n st {}) r

/-- The rest of `Decode` after the loop (src/vcdiff_main.cc:495-512). The string `output` is empty by then. -/
def endDecodeStats (c : Counters) : Turn Decoder → List Statistics
  | .next _ => []
  | .fail _ => []
  | .last st =>
    if st.coder.finish.1 = false then []
    else
      let c := c.written 0
      if 0 < c.output then [{ original := c.output, compressed := c.input }] else []

/-- `Decode` (src/vcdiff_main.cc:450-512). -/
def runDecodeStats (n : Nat) (t : Trouble) (a : Args) (s : System) : List Statistics :=
  match openFiles t s a.flags.buffersize a.dictionary a.delta a.target with
  | none => []
  | some (dict, input, size, sys, out) =>
    let st : Stage Decoder := { sys, input, coder := decoder a.flags dict, pending := [], out }
    match turns (decodeTurn t size) n st with
    | .error _ => []
    | .ok r => endDecodeStats (turnsCount (decodeTurn t size) (decodeTurnCount t size) n st {}) r

/-- The rest of `DecodeAndCompare` after the loop (src/vcdiff_main.cc:559-586). -/
def endCompareStats (t : Trouble) (s : System) (c : Counters) : Turn (Decoder × InFile) → List Statistics
  | .next _ => []
  | .fail _ => []
  | .last st =>
    if st.coder.1.finish.1 = false then []
    else
      let c := c.written 0
      match st.coder.2.fread t s 1 with
      | none => []
      | some (data, _) =>
        if data = [] then
          if 0 < c.output then [{ original := c.output, compressed := c.input }] else []
        else []

/-- `DecodeAndCompare` (src/vcdiff_main.cc:514-586). -/
def runCompareStats (n : Nat) (t : Trouble) (a : Args) (s : System) : List Statistics :=
  match openDictionary t s a.dictionary with
  | none => []
  | some dict =>
    match openForReading t s a.flags.buffersize a.delta with
    | none => []
    | some (input, size) =>
      match openForReading t s a.flags.buffersize a.target with
      | none => []
      | some (target, _) =>
        let st : Stage (Decoder × InFile) := { sys := s, input, coder := (decoder a.flags dict, target), pending := [], out := { name := "" } }
        match turns (compareTurn t size) n st with
        | .error _ => []
        | .ok r => endCompareStats t s (turnsCount (compareTurn t size) (compareTurnCount t size) n st {}) r

/-- `main` (src/vcdiff_main.cc:589-661): the lines of statistics, with `--stats`. -/
def mainStats (n : Nat) (t : Trouble) (a : Args) (s : System) : List Statistics :=
  let s := { s with stdout := [] }
  match a.rest with
  | [command] =>
    if a.dictionary = "" then []
    else if a.flags.buffersize = 0 then []
    else if command = "encode" ∨ command = "delta" then runEncodeStats n t a s
    else if command = "decode" ∨ command = "patch" then runDecodeStats n t a s
    else if command = "test" then
      if a.target = "" ∨ a.delta = "" then []
      else
        runEncodeStats n t a s ++
          match runEncode n t a s with
          | .error _ => []
          | .ok r => if r.status = some 0 then runCompareStats n t a r.sys else []
    else []
  | _ => []

end Vcd.Cli
