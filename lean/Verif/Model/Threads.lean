import Verif.Model.Encoder

/-!
# Encoders in several threads

Encoders share two kinds of data: `HashedDictionary` objects, which are not changed after `Init`, and two
static pointers, `RollingHash<16>::remove_table_` and `VCDiffInstructionMap::default_instruction_map`,
which are set when they are first needed, without any locking. Here the code that reads and writes them is
modelled step by step: one step is one access to a static pointer or to an object that can be reached
through one. Everything else a thread does is its own business and needs no steps.

Simplification: memory is sequentially consistent, that is, the accesses of all threads form one sequence.
(For C++11 an unsynchronised access is undefined behaviour; the code is older.) Objects are not deleted:
the library never deletes these.
-/

namespace Vcd

/-- The static pointers `RollingHash<16>::remove_table_` (src/rolling_hash.h:158, 168) and
`VCDiffInstructionMap::default_instruction_map` (src/instruction_map.h:198, src/instruction_map.cc:25). -/
inductive Global where
  | removeTable
  | defaultMap
  deriving DecidableEq, Repr

/-- An object one of them can point to: an array `uint32_t[256]`, with `none` for an element that has not
been written, or an instruction map. -/
inductive Obj where
  | table (cells : List (Option UInt32))
  | map (m : InstructionMap)
  deriving DecidableEq

/-- What the two kinds of objects are for. -/
def Obj.kind : Obj → Global
  | .table _ => .removeTable
  | .map _ => .defaultMap

/-- What the caller of the library sees of a command. -/
inductive ThreadReply where
  /-- the result of `HashedDictionary::Init` -/
  | inited (ok : Bool)
  /-- the result of a call of a `VCDiffStreamingEncoder` -/
  | called (r : EncoderReply)
  deriving DecidableEq, Repr

/-- A program of a thread, as a tree of its accesses to shared memory. A pointer is a number. -/
inductive Prog (α : Type) where
  /-- the end -/
  | ret (a : α)
  /-- undefined behaviour or a failed check -/
  | fault (f : Fault)
  /-- reads a static pointer; `none` is `NULL` -/
  | load (g : Global) (k : Option Nat → Prog α)
  /-- writes a static pointer -/
  | set (g : Global) (p : Nat) (k : Prog α)
  /-- `new` -/
  | alloc (o : Obj) (k : Nat → Prog α)
  /-- changes an object -/
  | modify (p : Nat) (f : Obj → Except Fault Obj) (k : Prog α)
  /-- reads an object -/
  | read (p : Nat) (k : Obj → Prog α)
  /-- shows a result to the caller -/
  | emit (r : ThreadReply) (k : Prog α)

namespace Prog

/-- One program after the other. -/
def bind {α β : Type} : Prog α → (α → Prog β) → Prog β
  | ret a, f => f a
  | fault e, _ => fault e
  | load g k, f => load g fun q => (k q).bind f
  | set g p k, f => set g p (k.bind f)
  | alloc o k, f => alloc o fun p => (k p).bind f
  | modify p g k, f => modify p g (k.bind f)
  | read p k, f => read p fun o => (k o).bind f
  | emit r k, f => emit r (k.bind f)

instance : Monad Prog where
  pure := ret
  bind := bind

/-- What happens inside the thread. -/
def lift {α : Type} : Except Fault α → Prog α
  | .error f => fault f
  | .ok a => ret a

end Prog

/-- The shared memory: the two pointers, and the objects by their numbers. -/
structure Memory where
  removeTable : Option Nat := none
  defaultMap : Option Nat := none
  heap : List Obj := []
  deriving DecidableEq

/-- The value of a static pointer. -/
def Memory.get (m : Memory) : Global → Option Nat
  | .removeTable => m.removeTable
  | .defaultMap => m.defaultMap

/-- Assignment to a static pointer. -/
def Memory.put (m : Memory) (g : Global) (p : Nat) : Memory :=
  match g with
  | .removeTable => { m with removeTable := some p }
  | .defaultMap => { m with defaultMap := some p }

/-- One step of a program: the replies shown, the memory and the rest of the program. Nothing happens after
the end. -/
def Prog.step {α : Type} (m : Memory) : Prog α → Except Fault (List ThreadReply × Memory × Prog α)
  | .ret a => .ok ([], m, .ret a)
  | .fault f => .error f
  | .load g k => .ok ([], m, k (m.get g))
  | .set g p k => .ok ([], m.put g p, k)
  | .alloc o k => .ok ([], { m with heap := m.heap ++ [o] }, k m.heap.length)
  | .modify p f k =>
    match m.heap[p]? with
    | none => .error .oobRead
    | some o => (f o).map fun o => ([], { m with heap := m.heap.set p o }, k)
  | .read p k =>
    match m.heap[p]? with
    | none => .error .oobRead
    | some o => .ok ([], m, k o)
  | .emit r k => .ok ([r], m, k)

/-- A program that runs alone to its end: the memory, the replies and the result. -/
def Prog.run {α : Type} (m : Memory) : Prog α → Except Fault (Memory × List ThreadReply × α)
  | .ret a => .ok (m, [], a)
  | .fault f => .error f
  | .load g k => (k (m.get g)).run m
  | .set g p k => k.run (m.put g p)
  | .alloc o k => (k m.heap.length).run { m with heap := m.heap ++ [o] }
  | .modify p f k =>
    match m.heap[p]? with
    | none => .error .oobRead
    | some o =>
      match f o with
      | .error e => .error e
      | .ok o => k.run { m with heap := m.heap.set p o }
  | .read p k =>
    match m.heap[p]? with
    | none => .error .oobRead
    | some o => (k o).run m
  | .emit r k => (k.run m).map fun (m, rs, a) => (m, r :: rs, a)

namespace Threads

/-! ## `RollingHash<16>` -/

/-- Writes one element of the array. -/
def writeCell (i : Nat) (v : UInt32) : Obj → Except Fault Obj
  | .table cells => if i < cells.length then .ok (.table (cells.set i (some v))) else .error .bufferOverrun
  | .map _ => .error .assertion

/-- The loop that fills the table (src/rolling_hash.h:216-224), from element `i` on, `n` elements. -/
def fillTable (p : Nat) (mult : UInt32) : (n i : Nat) → (byteTimesMultiplier : UInt32) → Prog Unit
  | 0, _, _ => .ret ()
  | n + 1, i, x =>
    .modify p (writeCell i (RollingHash.findModBaseInverse x))
      (fillTable p mult n (i + 1) (RollingHash.modBase (x + mult)))

/-- `RollingHash<16>::Init` (src/rolling_hash.h:176-227): the table is filled through a local pointer, which
is assigned to `remove_table_` at the end. -/
def rollingHashInit : Prog Unit :=
  .load .removeTable fun
    | some _ => .ret ()
    | none => .alloc (.table (List.replicate 256 none)) fun p =>
        (fillTable p (RollingHash.multiplier (kBlockSize - 1)) 256 0 0).bind fun _ => .set .removeTable p (.ret ())

/-- The element of a table that belongs to a byte. An element that has not been written has no value. -/
def cell (o : Obj) (b : UInt8) : Except Fault UInt32 :=
  match o with
  | .table cells =>
    match cells[b.toNat]? with
    | some (some v) => .ok v
    | _ => .error .oobRead
  | .map _ => .error .assertion

/-- `UpdateHash` and `RemoveFirstByteFromHash` (src/rolling_hash.h:137-153), which read `remove_table_` and
one element. -/
def updateHash (oldHash : UInt32) (oldFirstByte newLastByte : UInt8) : Prog UInt32 :=
  .load .removeTable fun
    | none => .fault .oobRead
    | some p => .read p fun o =>
        (Prog.lift (cell o oldFirstByte)).bind fun v =>
          .ret (RollingHash.hashStep (RollingHash.modBase (oldHash + v)) newLastByte)

/-! ## The default instruction map -/

/-- One iteration of the first pass of the constructor of `VCDiffInstructionMap`
(src/instruction_map.cc:158-176). -/
def addFirst (op : UInt8) : Obj → Except Fault Obj
  | .table _ => .error .assertion
  | .map m =>
    match firstPass defaultTable m.firstMap op with
    | none => .error .oobRead
    | some fm => .ok (.map { m with firstMap := fm })

/-- One iteration of the second pass (src/instruction_map.cc:178-193). -/
def addSecond (op : UInt8) : Obj → Except Fault Obj
  | .table _ => .error .assertion
  | .map m =>
    match secondPass defaultTable m.firstMap m.secondMap op with
    | none => .error .oobRead
    | some sm => .ok (.map { m with secondMap := sm })

/-- A loop over opcodes. -/
def forOpcodes (p : Nat) (f : UInt8 → Obj → Except Fault Obj) : List UInt8 → Prog Unit
  | [] => .ret ()
  | op :: ops => .modify p (f op) (forOpcodes p f ops)

/-- The object before the first pass (src/instruction_map.cc:150-157). -/
def emptyMap : InstructionMap where
  firstMap := { numTypeModes := 3 + defaultLastMode + 1, maxSize := findMaxSize defaultTable.size1, entries := [] }
  secondMap :=
    { numTypeModes := 3 + defaultLastMode + 1, maxSize := findMaxSize defaultTable.size2, present := [], entries := [] }

/-- `GetDefaultInstructionMap` (src/instruction_map.cc:27-34); the pointer is read again for the
result. -/
def getDefaultInstructionMap : Prog (Option Nat) :=
  .load .defaultMap fun q =>
    (match q with
      | some _ => .ret ()
      | none => .alloc (.map emptyMap) fun p =>
          (forOpcodes p addFirst allOpcodes).bind fun _ =>
            (forOpcodes p addSecond allOpcodes).bind fun _ => .set .defaultMap p (.ret ()) : Prog Unit).bind fun _ =>
      .load .defaultMap .ret

/-! ## The engine -/

/-- The loop of `EncodeInternal`: `Engine.encodeLoop` with `UpdateHash` as above. The dictionary hash and
the target hash are not shared, or not changed any more. -/
def encodeLoop (hashed : BlockHash) (target : Bytes) :
    (fuel : Nat) → (nextEncode candidate : Nat) → (hashValue : UInt32) → Option BlockHash → List CoderCall →
    Prog (Nat × List CoderCall)
  | 0, _, _, _, _, _ => .fault .diverge
  | fuel + 1, nextEncode, candidate, hashValue, targetHash, calls =>
    (Prog.lift (Engine.encodeCopyForBestMatch hashed targetHash hashValue (target.drop nextEncode)
      (candidate - nextEncode))).bind fun (bytesEncoded, made) =>
    if bytesEncoded > 0 then
      let nextEncode := nextEncode + bytesEncoded
      if nextEncode > target.length - kBlockSize then .ret (nextEncode, calls ++ made)
      else
        (Prog.lift (readBlock target nextEncode)).bind fun block =>
        (Prog.lift (Engine.updateTargetHash targetHash (·.addAllBlocksThroughIndex (toInt32 nextEncode)))).bind
          fun targetHash =>
        encodeLoop hashed target fuel nextEncode nextEncode (RollingHash.hash block) targetHash (calls ++ made)
    else if candidate + 1 > target.length - kBlockSize then .ret (nextEncode, calls)
    else
      (Prog.lift (Engine.updateTargetHash targetHash (·.addOneIndexHash candidate hashValue))).bind fun targetHash =>
      match target[candidate]?, target[candidate + kBlockSize]? with
      | some old, some new =>
        (updateHash hashValue old new).bind fun hashValue =>
          encodeLoop hashed target fuel nextEncode (candidate + 1) hashValue targetHash calls
      | _, _ => .fault .oobRead

/-- `VCDiffEngine::Encode` (src/vcdiffengine.cc:132-228). The constructor of `RollingHash`, which checks
`remove_table_` (src/rolling_hash.h:108-113), is called in line 151. -/
def encode (e : Engine) (lookForTargetMatches : Bool) (target : Bytes) : Prog (List CoderCall) :=
  match e.hashed with
  | none => .fault .assertion
  | some hashed =>
    if target.length = 0 then .ret []
    else if target.length < kBlockSize then .ret (Engine.addUnmatchedRemainder target ++ [.output])
    else
      .load .removeTable fun
        | none => .fault .assertion
        | some _ =>
          (Prog.lift (Engine.createTargetHash e lookForTargetMatches target)).bind fun targetHash =>
          (Prog.lift (readBlock target 0)).bind fun block =>
          (encodeLoop hashed target (target.length + 1) 0 0 (RollingHash.hash block) targetHash []).bind
            fun (nextEncode, calls) =>
          .ret (calls ++ Engine.addUnmatchedRemainder (target.drop nextEncode) ++ [.output])

/-- `VCDiffEngine::Init` for a new dictionary (src/vcdiffengine.cc:43-58): `none` if it returns
`false`. -/
def engineInit (dictionary : Bytes) : Prog (Option Engine) :=
  (Prog.lift (Engine.init dictionary)).bind fun
    | none => .ret none
    | some e => rollingHashInit.bind fun _ => .ret (some e)

/-! ## The writer and the encoder -/

/-- A writer with the default code table; `instruction_map_` is a pointer, and the field `map` of the writer
is not used. -/
structure PWriter where
  writer : Writer
  map : Option Nat := none

/-- The pointer to the instruction map (src/encodetable.cc:104-113). -/
def PWriter.getMap (w : PWriter) : Prog (Option Nat) :=
  match w.map with
  | some p => .ret (some p)
  | none => getDefaultInstructionMap

/-- `Init` (src/encodetable.cc:102-120). -/
def PWriter.init (w : PWriter) (dictionarySize : Nat) : Prog (Bool × PWriter) :=
  w.getMap.bind fun
    | none => .ret (false, { w with writer := { w.writer with dictionarySize } })
    | some p =>
      match w.writer.cache.init with
      | none => .ret (false, { writer := { w.writer with dictionarySize }, map := some p })
      | some cache =>
        .ret (true, { writer := { w.writer with dictionarySize, cache, targetLength := 0, lastOpcode := none }, map := some p })

/-- One call from the engine, with the instruction map the pointer points to. -/
def PWriter.call (w : PWriter) (c : CoderCall) : Prog (Bytes × PWriter) :=
  match w.map with
  | none => .fault .assertion
  | some p => .read p fun
      | .table _ => .fault .assertion
      | .map m =>
        (Prog.lift ({ w.writer with map := some m }.call c)).bind fun (out, w') =>
          .ret (out, { w with writer := { w' with map := none } })

/-- A sequence of calls. -/
def PWriter.calls (w : PWriter) : List CoderCall → Prog (Bytes × PWriter)
  | [] => .ret ([], w)
  | c :: cs =>
    (w.call c).bind fun (out, w) => (w.calls cs).bind fun (out', w) => .ret (out ++ out', w)

/-- The writer of an encoder: the JSON writer does not use anything shared. -/
inductive PCoder where
  | binary (w : PWriter)
  | json (w : JsonWriter)

/-- `VCDiffStreamingEncoderImpl` (src/vcencoder.cc:69-106). -/
structure PEncoder where
  engine : Engine
  coder : PCoder
  flags : Nat
  lookForTargetMatches : Bool
  allowed : Bool := false

/-- The constructor (src/vcencoder.cc:108-117, 166-176) with `create_writer` (lines 44-55). -/
def PEncoder.new (engine : Engine) (flags : Nat) (lookForTargetMatches : Bool) : PEncoder :=
  { engine, flags, lookForTargetMatches,
    coder := if flags &&& 4 ≠ 0 then .json {} else .binary { writer := Writer.new (flags &&& 1 != 0) } }

/-- `StartEncoding` (src/vcencoder.cc:119-134). -/
def PEncoder.start (e : PEncoder) : Prog (EncoderReply × PEncoder) :=
  match e.coder with
  | .binary w =>
    (w.init e.engine.dictionary.length).bind fun
      | (false, w) => .ret (⟨false, []⟩, { e with coder := .binary w })
      | (true, w) => .ret (⟨true, Writer.header e.flags⟩, { e with coder := .binary w, allowed := true })
  | .json w =>
    if JsonWriter.isAscii e.engine.dictionary then
      .ret (⟨true, []⟩, { e with coder := .json w.init, allowed := true })
    else .ret (⟨false, []⟩, { e with coder := .json w.init })

/-- `EncodeChunk` (src/vcencoder.cc:136-153). -/
def PEncoder.chunk (e : PEncoder) (data : Bytes) : Prog (EncoderReply × PEncoder) :=
  if !e.allowed then .ret (⟨false, []⟩, e)
  else
    match e.coder with
    | .binary w =>
      let w := if e.flags &&& 2 ≠ 0 then { w with writer := w.writer.addChecksum (computeAdler32 data) } else w
      (encode e.engine e.lookForTargetMatches data).bind fun calls =>
        (w.calls calls).bind fun (out, w) => .ret (⟨true, out⟩, { e with coder := .binary w })
    | .json w =>
      if !JsonWriter.isAscii data then .ret (⟨false, []⟩, e)
      else
        (encode e.engine e.lookForTargetMatches data).bind fun calls =>
          .ret (⟨true, (w.calls calls).1⟩, { e with coder := .json (w.calls calls).2 })

/-- `FinishEncoding` (src/vcencoder.cc:155-164). -/
def PEncoder.finish (e : PEncoder) : EncoderReply × PEncoder :=
  if !e.allowed then (⟨false, []⟩, e)
  else
    match e.coder with
    | .binary _ => (⟨true, []⟩, { e with allowed := false })
    | .json w => (⟨true, w.finish⟩, { e with allowed := false })

/-- One API call. -/
def PEncoder.call (e : PEncoder) : EncoderCall → Prog (EncoderReply × PEncoder)
  | .start => e.start
  | .chunk data => e.chunk data
  | .finish => .ret e.finish

/-! ## Threads -/

/-- What a thread does with the library. -/
inductive Command where
  /-- constructs a `HashedDictionary` and calls `Init`; if that succeeds, it becomes the dictionary in use -/
  | dictionary (contents : Bytes)
  /-- constructs a `VCDiffStreamingEncoder` with the dictionary in use -/
  | encoder (flags : Nat) (lookForTargetMatches : Bool)
  /-- calls a method of that encoder -/
  | call (c : EncoderCall)
  deriving DecidableEq, Repr

/-- The objects of a thread: the dictionary in use and the encoder. -/
structure Objects where
  engine : Option Engine := none
  encoder : Option PEncoder := none

/-- The program of one command. Without a dictionary there is no encoder, and without an encoder no
call. -/
def command (s : Objects) : Command → Prog Objects
  | .dictionary contents =>
    (engineInit contents).bind fun
      | none => .emit (.inited false) (.ret s)
      | some e => .emit (.inited true) (.ret { s with engine := some e })
  | .encoder flags matching => .ret { s with encoder := s.engine.map (PEncoder.new · flags matching) }
  | .call c =>
    match s.encoder with
    | none => .ret s
    | some e => (e.call c).bind fun (r, e) => .emit (.called r) (.ret { s with encoder := some e })

/-- The program of a list of commands. -/
def commands (s : Objects) : List Command → Prog Objects
  | [] => .ret s
  | c :: cs => (command s c).bind fun s => commands s cs

/-- A thread: what it has still to do, and the replies it has got. -/
structure Thread where
  todo : Prog Objects
  replies : List ThreadReply := []

/-- All threads and the memory they share. -/
structure System where
  memory : Memory
  threads : List Thread

/-- The program of a thread has come to its end. -/
def Thread.Finished (t : Thread) : Prop := ∃ s, t.todo = .ret s

/-- One step of thread `i`; nothing happens if there is none. -/
def System.step (s : System) (i : Nat) : Except Fault System :=
  match s.threads[i]? with
  | none => .ok s
  | some t =>
    match t.todo.step s.memory with
    | .error f => .error f
    | .ok (rs, memory, todo) =>
      .ok { memory, threads := s.threads.set i { todo, replies := t.replies ++ rs } }

/-- The threads make steps in the order of the schedule. -/
def System.run (s : System) : List Nat → Except Fault System
  | [] => .ok s
  | i :: sched =>
    match s.step i with
    | .error f => .error f
    | .ok s => s.run sched

/-- First one thread executes some commands alone; then several threads start, each with its own commands
and with the dictionary that has been made by the first. -/
def launch (setup : List Command) (programs : List (List Command)) : Except Fault System :=
  match (commands {} setup).run {} with
  | .error f => .error f
  | .ok (memory, _, s) =>
    .ok { memory, threads := programs.map fun cs => { todo := commands { engine := s.engine } cs } }

end Threads
end Vcd
