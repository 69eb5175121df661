import Verif.Model.Release

/-!
# Dictionaries and encoders as objects (src/google/vcencoder.h, src/vcencoder.cc, src/vcdiffengine.cc, src/blockhash.cc)

In `Model.Encoder` an encoder contains its engine, and the engine its dictionary. In the program there are pointers instead: a
`HashedDictionary` points to a `VCDiffEngine`, which points to its copy of the dictionary and to a `BlockHash`, which points to the copy,
too; any number of encoders point to the same engine, and each has a writer that it deletes. Here are these objects, with the
question, at each access, whether what is accessed still exists. What is computed from the bytes found there is taken from
`Model.Release`, a build in which `VCD_DFATAL` does not exit.

The second constructor of `VCDiffStreamingEncoder`, with a writer of the caller, is not here (`Model.WriterInterface`).
-/

namespace Vcd.Ownership

/-- What a program must never do with memory: `dead` is to access an object that does not exist any more, or to delete it again; `fault`
is one of the faults of `Model.Release`. -/
inductive Bad where
  | dead
  | fault (f : Fault)
  deriving DecidableEq, Repr

/-- Where a `const char*` points to: memory that the caller has passed to a call (calls are numbered), an array made
by `new char[]`, or a string literal, which is `""` (src/vcdiffengine.cc:26-35). -/
inductive Text where
  | caller (call : Nat)
  | array (i : Nat)
  | literal
  deriving DecidableEq, Repr

/-- A `VCDiffEngine` (src/vcdiffengine.h:105-115): `dictionary_`, `dictionary_size_`, `hashed_dictionary_`. -/
structure EngineObject where
  dictionary : Text
  size : Nat
  hashed : Option Nat
  deriving DecidableEq, Repr

/-- A `BlockHash` (src/blockhash.h:446-497): `source_data_`, and the other members. The `source` of `tables` is not used. -/
structure HashObject where
  source : Text
  tables : BlockHash
  deriving DecidableEq, Repr

/-- A `VCDiffStreamingEncoderImpl` (src/vcencoder.cc:69-106): `engine_`, `coder_`, `format_extensions_`,
`look_for_target_matches_`, `encode_chunk_allowed_`. -/
structure EncoderObject where
  engine : Nat
  coder : Nat
  flags : Nat
  lookForTargetMatches : Bool
  allowed : Bool
  deriving DecidableEq, Repr

/-- The objects in memory; those that have been deleted are `none`. `memory` is the memory that the caller has passed to call number `call`; it is
`none` between calls, when the caller may have freed it or used it for something else. `dictionaries` and `encoders` are the
`HashedDictionary` and `VCDiffStreamingEncoder` objects of the caller, with `engine_` (src/google/vcencoder.h:54) and `impl_`
(src/google/vcencoder.h:206). -/
structure World where
  call : Nat := 0
  memory : Option Bytes := none
  arrays : List (Option Bytes) := []
  engines : List (Option EngineObject) := []
  hashes : List (Option HashObject) := []
  writers : List (Option Coder) := []
  impls : List (Option EncoderObject) := []
  dictionaries : List (Option Nat) := []
  encoders : List (Option Nat) := []
  deriving DecidableEq

/-- Access to an object through a pointer (e.g. src/vcencoder.cc:119-134). -/
def at' {α : Type} (objects : List (Option α)) (i : Nat) : Except Bad α :=
  match objects[i]? with
  | some (some x) => .ok x
  | _ => .error .dead

/-- `delete` (e.g. src/vcdiffengine.cc:37-42). -/
def delete {α : Type} (objects : List (Option α)) (i : Nat) : Except Bad (List (Option α)) := do
  let _ ← at' objects i
  .ok (objects.set i none)

/-- A fault of a function of `Model.Release`. -/
def faulty {α : Type} : Except Fault α → Except Bad α
  | .ok a => .ok a
  | .error f => .error (.fault f)

namespace World

/-- What a `const char*` points to (e.g. src/blockhash.cc:403-443). -/
def read (w : World) : Text → Except Bad Bytes
  | .caller call => match if call = w.call then w.memory else none with
    | some bytes => .ok bytes
    | none => .error .dead
  | .array i => at' w.arrays i
  | .literal => .ok []

/-- A call begins: the caller passes `bytes`. -/
def enter (w : World) (bytes : Bytes) : World := { w with call := w.call + 1, memory := some bytes }

/-- A call ends. -/
def leave (w : World) : World := { w with memory := none }

/-- `HashedDictionary(dictionary_contents, dictionary_size)` (src/vcencoder.cc:59-61) and
`VCDiffEngine(dictionary, dictionary_size)` (src/vcdiffengine.cc:26-35), which copies the dictionary. -/
def newDictionary (w : World) (contents : Text) (size : Nat) : Except Bad World := do
  let (w, copy) ← (
    if size > 0 then do
      let bytes ← w.read contents
      .ok ({ w with arrays := w.arrays ++ [some bytes] }, .array w.arrays.length)
    else .ok (w, .literal) : Except Bad (World × Text))
  .ok { w with engines := w.engines ++ [some { dictionary := copy, size, hashed := none }],
               dictionaries := w.dictionaries ++ [some w.engines.length] }

/-- `HashedDictionary::Init` (src/vcencoder.cc:65-67), `VCDiffEngine::Init` (src/vcdiffengine.cc:44-58) and
`CreateDictionaryHash` (src/blockhash.cc:80-91). If the `BlockHash` cannot be initialised it is deleted at once. -/
def init (w : World) (d : Nat) : Except Bad (Bool × World) := do
  let p ← at' w.dictionaries d
  let e ← at' w.engines p
  match e.hashed with
  | some _ => .ok (false, w)
  | none => do
    let dictionary ← w.read e.dictionary
    match ← faulty (Release.create dictionary 0 true) with
    | none => .ok (false, w)
    | some bh =>
      .ok (true, { w with
        hashes := w.hashes ++ [some { source := e.dictionary, tables := { bh with source := [] } }]
        engines := w.engines.set p (some { e with hashed := some w.hashes.length }) })

/-- `~HashedDictionary` (src/vcencoder.cc:63) and `~VCDiffEngine` (src/vcdiffengine.cc:37-42). `dictionary_` is an array if
its size is not 0. -/
def deleteDictionary (w : World) (d : Nat) : Except Bad World := do
  let p ← at' w.dictionaries d
  let e ← at' w.engines p
  let hashes ← (match e.hashed with
    | some h => delete w.hashes h
    | none => .ok w.hashes : Except Bad (List (Option HashObject)))
  let arrays ← (
    if e.size > 0 then
      match e.dictionary with
      | .array i => delete w.arrays i
      | _ => .error .dead
    else .ok w.arrays : Except Bad (List (Option Bytes)))
  let engines ← delete w.engines p
  let dictionaries ← delete w.dictionaries d
  .ok { w with hashes, arrays, engines, dictionaries }

/-- The first constructor of `VCDiffStreamingEncoder` (src/vcencoder.cc:108-117, 166-175) with `create_writer`
(src/vcencoder.cc:44-55). -/
def newEncoder (w : World) (d flags : Nat) (lookForTargetMatches : Bool) : Except Bad World := do
  let p ← at' w.dictionaries d
  .ok { w with
    writers := w.writers ++ [some (createWriter flags)]
    impls := w.impls ++ [some { engine := p, coder := w.writers.length, flags, lookForTargetMatches, allowed := false }]
    encoders := w.encoders ++ [some w.impls.length] }

/-- What an engine consists of, for the functions of `Model.Release` (src/vcdiffengine.h:105-115). -/
def loadEngine (w : World) (p : Nat) : Except Bad Engine := do
  let e ← at' w.engines p
  let dictionary ← w.read e.dictionary
  match e.hashed with
  | none => .ok { dictionary, hashed := none }
  | some h => do
    let o ← at' w.hashes h
    let source ← w.read o.source
    .ok { dictionary, hashed := some { o.tables with source } }

/-- What the functions of an encoder change (src/vcencoder.cc:69-106): the writer and `encode_chunk_allowed_`. -/
def store (w : World) (i : Nat) (o : EncoderObject) (e : Encoder) : World :=
  { w with writers := w.writers.set o.coder (some e.coder), impls := w.impls.set i (some { o with allowed := e.allowed }) }

/-- `StartEncoding` (src/vcencoder.cc:119-134, 188-191). Simplification: the dictionary has to exist even if the writer does not look at it
(`VerifyDictionary`). -/
def start (w : World) (e : Nat) : Except Bad (EncoderReply × World) := do
  let i ← at' w.encoders e
  let o ← at' w.impls i
  let coder ← at' w.writers o.coder
  let engine ← w.loadEngine o.engine
  let r ← faulty (Release.start
    { engine, coder, flags := o.flags, lookForTargetMatches := o.lookForTargetMatches, allowed := o.allowed })
  .ok (⟨r.1, r.2.1⟩, w.store i o r.2.2)

/-- The `BlockHash` that `EncodeInternal` makes for the target (src/vcdiffengine.cc:137-163), if it does: it points to the memory of the
caller. -/
def targetHash (w : World) (engine : Engine) (lookForTargetMatches : Bool) (data : Text) : Except Bad (World × Option Nat) := do
  let bytes ← w.read data
  if engine.hashed.isNone ∨ bytes.length < kBlockSize ∨ lookForTargetMatches = false then .ok (w, none)
  else
    match ← faulty (Release.create bytes (toInt32 engine.dictionary.length) false) with
    | none => .ok (w, none)
    | some bh =>
      .ok ({ w with hashes := w.hashes ++ [some { source := data, tables := { bh with source := [] } }] }, some w.hashes.length)

/-- `delete target_hash` (src/vcdiffengine.cc:215). -/
def deleteTargetHash (w : World) : Option Nat → Except Bad World
  | none => .ok w
  | some h => do
    let hashes ← delete w.hashes h
    .ok { w with hashes }

/-- `EncodeChunk` (src/vcencoder.cc:136-153, 193-198). Simplification: the engine has to exist even if `VerifyChunk` refuses
the chunk; what the `BlockHash` of the target goes through in `EncodeInternal` is in `Release.chunk`. -/
def chunk (w : World) (e : Nat) (data : Text) : Except Bad (EncoderReply × World) := do
  let i ← at' w.encoders e
  let o ← at' w.impls i
  if o.allowed = false then .ok (⟨false, []⟩, w)
  else do
    let coder ← at' w.writers o.coder
    let engine ← w.loadEngine o.engine
    let bytes ← w.read data
    let r ← faulty (Release.chunk
      { engine, coder, flags := o.flags, lookForTargetMatches := o.lookForTargetMatches, allowed := o.allowed } bytes)
    if r.1 = false then .ok (⟨r.1, r.2.1⟩, w.store i o r.2.2)
    else do
      let (w, h) ← w.targetHash engine o.lookForTargetMatches data
      let w ← w.deleteTargetHash h
      .ok (⟨r.1, r.2.1⟩, w.store i o r.2.2)

/-- `FinishEncoding` (src/vcencoder.cc:155-164, 200-203). Nothing is asked of the engine. -/
def finish (w : World) (e : Nat) : Except Bad (EncoderReply × World) := do
  let i ← at' w.encoders e
  let o ← at' w.impls i
  let coder ← at' w.writers o.coder
  let r := Encoder.finish
    { engine := { dictionary := [], hashed := none }, coder, flags := o.flags, lookForTargetMatches := o.lookForTargetMatches,
      allowed := o.allowed }
  .ok (⟨r.1, r.2.1⟩, w.store i o r.2.2)

/-- `~VCDiffStreamingEncoder` (src/vcencoder.cc:186): `delete impl_`, whose `coder_` deletes the writer. -/
def deleteEncoder (w : World) (e : Nat) : Except Bad World := do
  let i ← at' w.encoders e
  let o ← at' w.impls i
  let writers ← delete w.writers o.coder
  let impls ← delete w.impls i
  let encoders ← delete w.encoders e
  .ok { w with writers, impls, encoders }

end World

/-- What a program can do with dictionaries and encoders (src/google/vcencoder.h:38-206). Dictionaries and encoders are numbered in the
order of their construction. -/
inductive Op where
  | dictionary (contents : Bytes)
  | init (d : Nat)
  | deleteDictionary (d : Nat)
  | encoder (d flags : Nat) (lookForTargetMatches : Bool)
  | call (e : Nat) (c : EncoderCall)
  | deleteEncoder (e : Nat)
  deriving DecidableEq, Repr

namespace World

/-- One step of the program; `none` if there is no reply. The caller frees what it has passed as soon as the call returns. -/
def step (w : World) : Op → Except Bad (Option EncoderReply × World)
  | .dictionary contents => do
    let w := w.enter contents
    let w ← w.newDictionary (.caller w.call) contents.length
    .ok (none, w.leave)
  | .init d => do
    let (ret, w) ← w.init d
    .ok (some ⟨ret, []⟩, w)
  | .deleteDictionary d => do
    let w ← w.deleteDictionary d
    .ok (none, w)
  | .encoder d flags lookForTargetMatches => do
    let w ← w.newEncoder d flags lookForTargetMatches
    .ok (none, w)
  | .call e .start => do
    let (r, w) ← w.start e
    .ok (some r, w)
  | .call e (.chunk data) => do
    let w := w.enter data
    let (r, w) ← w.chunk e (.caller w.call)
    .ok (some r, w.leave)
  | .call e .finish => do
    let (r, w) ← w.finish e
    .ok (some r, w)
  | .deleteEncoder e => do
    let w ← w.deleteEncoder e
    .ok (none, w)

/-- The steps of a program: the replies, what stopped it, and the world it has left. -/
def run (w : World) : List Op → List (Option EncoderReply) × Option Bad × World
  | [] => ([], none, w)
  | op :: ops =>
    match w.step op with
    | .error b => ([], some b, w)
    | .ok (r, w') => (r :: (w'.run ops).1, (w'.run ops).2)

end World
end Vcd.Ownership
